import Verif.Props.LeapfrogConvergence
/-! # Leapfrog runs with the filter of Williams that conserves the mean: property C117 -/

namespace Verif

variable {u : Rat} {fl : Rat → Rat} {conv : DataArray → String → Except Err DataArray} {I : (String → Nat) → Prop}
  {w : String → Rat} {Q : String → Prop} {y : Trajectory} {J : Set ℝ} {D : Nat → Rat}

/-- The sums of the values before and after a step are within `S`, their differences within `H`, of those of the
solution. -/
def PairNear (I : (String → Nat) → Prop) (w : String → Rat) (Q : String → Prop) (y : Trajectory) (S H : Rat) (h τ : ℝ)
    (o x : EState DataArray) : Prop :=
  ∀ q, Q q → ∃ a b, Dict.get? o q = some (.da a) ∧ Dict.get? x q = some (.da b) ∧ ∀ ix, I ix →
    |((a.at' ix : ℝ) + b.at' ix) - (y 0 q ix (τ + -h) + y 0 q ix τ)| ≤ (S : ℝ) * w q ∧
    |((b.at' ix : ℝ) - a.at' ix) - (y 0 q ix τ - y 0 q ix (τ + -h))| ≤ (H : ℝ) * w q

theorem PairNear.near {S H : Rat} {h τ : ℝ} {o x : EState DataArray} (hp : PairNear I w Q y S H h τ o x) :
    NearSolution I w Q y ((S + H) / 2) τ x := by
  intro q hq
  obtain ⟨a, b, _, hb, hv⟩ := hp q hq
  refine ⟨b, hb, fun ix hix => ?_⟩
  obtain ⟨h1, h2⟩ := hv ix hix
  have i := abs_add_le (((a.at' ix : ℝ) + b.at' ix) - (y 0 q ix (τ + -h) + y 0 q ix τ))
    (((b.at' ix : ℝ) - a.at' ix) - (y 0 q ix τ - y 0 q ix (τ + -h)))
  rw [show ((a.at' ix : ℝ) + b.at' ix) - (y 0 q ix (τ + -h) + y 0 q ix τ) +
    (((b.at' ix : ℝ) - a.at' ix) - (y 0 q ix τ - y 0 q ix (τ + -h))) = 2 * ((b.at' ix : ℝ) - y 0 q ix τ) by ring,
    abs_mul, abs_two] at i
  push_cast
  linarith

/-- Two states near the solution. -/
theorem PairNear.of_near {E : Rat} {h τ : ℝ} {o x : EState DataArray} (ho : NearSolution I w Q y E (τ + -h) o)
    (hx : NearSolution I w Q y E τ x) : PairNear I w Q y (2 * E) (2 * E) h τ o x := by
  intro q hq
  obtain ⟨a, ha, hav⟩ := ho q hq
  obtain ⟨b, hb, hbv⟩ := hx q hq
  refine ⟨a, b, ha, hb, fun ix hix => ?_⟩
  have h1 := hav ix hix
  have h2 := hbv ix hix
  push_cast
  constructor
  · rw [show ((a.at' ix : ℝ) + b.at' ix) - (y 0 q ix (τ + -h) + y 0 q ix τ) =
      ((a.at' ix : ℝ) - y 0 q ix (τ + -h)) + ((b.at' ix : ℝ) - y 0 q ix τ) by ring]
    exact le_trans (abs_add_le _ _) (by linarith)
  · rw [show ((b.at' ix : ℝ) - a.at' ix) - (y 0 q ix τ - y 0 q ix (τ + -h)) =
      ((b.at' ix : ℝ) - y 0 q ix τ) - ((a.at' ix : ℝ) - y 0 q ix (τ + -h)) by ring]
    exact le_trans (abs_sub _ _) (by linarith)

theorem PairNear.mono {S S' H H' : Rat} {h τ : ℝ} {o x : EState DataArray} (hw : ∀ q, 0 ≤ w q) (hS : S ≤ S') (hH : H ≤ H')
    (hp : PairNear I w Q y S H h τ o x) : PairNear I w Q y S' H' h τ o x := by
  intro q hq
  obtain ⟨a, b, ha, hb, hv⟩ := hp q hq
  have hwq : (0 : ℝ) ≤ w q := by exact_mod_cast hw q
  refine ⟨a, b, ha, hb, fun ix hix => ⟨le_trans (hv ix hix).1 (mul_le_mul_of_nonneg_right ?_ hwq),
    le_trans (hv ix hix).2 (mul_le_mul_of_nonneg_right ?_ hwq)⟩⟩
  · exact_mod_cast hS
  · exact_mod_cast hH

/-! ## Steps -/

/-- The filter leaves the sum of the two values alone and damps the error of their difference. -/
theorem lf_pair_near {ν : Rat} (hν0 : 0 ≤ ν) (hν : ν ≤ 1) {h o x v : Rat} {d : Nat → ℝ → ℝ} {t S H F B2 B3 : ℝ}
    (hJ : Convex ℝ J) (ht : t ∈ J) (hth : t + (h : ℝ) ∈ J) (hth' : t + -(h : ℝ) ∈ J)
    (hd : ∀ j ≤ 2, ∀ x ∈ J, HasDerivAt (d j) (d (j + 1) x) x) (h2 : ∀ x ∈ J, |d 2 x| ≤ B2) (h3 : ∀ x ∈ J, |d 3 x| ≤ B3)
    (hS : |((o : ℝ) + x) - (d 0 (t + -(h : ℝ)) + d 0 t)| ≤ S) (hH : |((x : ℝ) - o) - (d 0 t - d 0 (t + -(h : ℝ)))| ≤ H)
    (hv : |(v : ℝ) - d 1 t| ≤ F) :
    |(((roundedLF id ν (1 / 2) h o x v).1 : ℝ) + ((roundedLF id ν (1 / 2) h o x v).2 : ℝ)) - (d 0 t + d 0 (t + (h : ℝ)))| ≤
      S + 2 * |(h : ℝ)| * F + B3 / 3 * |(h : ℝ)| ^ 3 ∧
    |(((roundedLF id ν (1 / 2) h o x v).2 : ℝ) - ((roundedLF id ν (1 / 2) h o x v).1 : ℝ)) - (d 0 (t + (h : ℝ)) - d 0 t)| ≤
      (1 - ν) * H + 2 * |(h : ℝ)| * F + (ν * (B2 / 2 * |(h : ℝ)| ^ 2) + B3 / 3 * |(h : ℝ)| ^ 3) := by
  obtain ⟨_, b, _⟩ := taylor_stages hJ ht hth hd h2 h3
  obtain ⟨_, b', _⟩ := taylor_stages hJ ht hth' hd h2 h3
  rw [abs_neg] at b'
  have hν0' : (0 : ℝ) ≤ ν := by exact_mod_cast hν0
  have hν' : (ν : ℝ) ≤ 1 := by exact_mod_cast hν
  have hHh := abs_nonneg (h : ℝ)
  have e1 : (roundedLF id ν (1 / 2) h o x v).1 = x + 1 / 2 * ν * (o - x + h * v) := by
    unfold roundedLF
    simp only [id]
    ring
  have e2 : (roundedLF id ν (1 / 2) h o x v).2 = o + 2 * h * v - 1 / 2 * ν * (o - x + h * v) := by
    unfold roundedLF
    simp only [id]
    rw [if_pos (by norm_num)]
    ring
  have hg : |(h : ℝ) * ((v : ℝ) - d 1 t)| ≤ |(h : ℝ)| * F := by
    rw [abs_mul]
    exact mul_le_mul_of_nonneg_left hv hHh
  have hsec : |(h : ℝ) ^ 2 / 2 * d 2 t| ≤ B2 / 2 * |(h : ℝ)| ^ 2 := by
    rw [abs_mul, abs_div, abs_two, abs_pow]
    have := mul_le_mul_of_nonneg_left (h2 t ht) (by positivity : 0 ≤ |(h : ℝ)| ^ 2 / 2)
    refine le_trans this (le_of_eq (by ring))
  have hB3 : 0 ≤ B3 * (|(h : ℝ)| ^ 3 / 6) := le_trans (abs_nonneg _) b
  have hG : 0 ≤ |(h : ℝ)| * F := le_trans (abs_nonneg _) hg
  rw [e1, e2]
  push_cast
  constructor
  · rw [show ((x : ℝ) + 1 / 2 * ν * (o - x + h * v) + (o + 2 * h * v - 1 / 2 * ν * (o - x + h * v))) -
        (d 0 t + d 0 (t + (h : ℝ))) = (((o : ℝ) + x) - (d 0 (t + -(h : ℝ)) + d 0 t)) + 2 * ((h : ℝ) * ((v : ℝ) - d 1 t)) +
        ((d 0 (t + -(h : ℝ)) - (d 0 t + -(h : ℝ) * d 1 t + (-(h : ℝ)) ^ 2 / 2 * d 2 t)) -
        (d 0 (t + (h : ℝ)) - (d 0 t + (h : ℝ) * d 1 t + (h : ℝ) ^ 2 / 2 * d 2 t))) by ring]
    refine le_trans (abs_add_le _ _) (le_trans (add_le_add (le_trans (abs_add_le _ _) (add_le_add hS (le_of_eq (abs_mul _ _))))
      (abs_sub _ _)) ?_)
    rw [abs_two]
    linarith
  · rw [show ((o : ℝ) + 2 * h * v - 1 / 2 * ν * (o - x + h * v) - (x + 1 / 2 * ν * (o - x + h * v))) -
        (d 0 (t + (h : ℝ)) - d 0 t) = (-(1 - (ν : ℝ)) * (((x : ℝ) - o) - (d 0 t - d 0 (t + -(h : ℝ)))) +
        (2 - (ν : ℝ)) * ((h : ℝ) * ((v : ℝ) - d 1 t))) + (-(ν : ℝ) * ((h : ℝ) ^ 2 / 2 * d 2 t) +
        (1 - (ν : ℝ)) * (d 0 (t + -(h : ℝ)) - (d 0 t + -(h : ℝ) * d 1 t + (-(h : ℝ)) ^ 2 / 2 * d 2 t)) -
        (d 0 (t + (h : ℝ)) - (d 0 t + (h : ℝ) * d 1 t + (h : ℝ) ^ 2 / 2 * d 2 t))) by ring]
    have k : ∀ {m z Z : ℝ}, 0 ≤ m → |z| ≤ Z → |m * z| ≤ m * Z := fun hm hz => by
      rw [abs_mul, abs_of_nonneg hm]
      exact mul_le_mul_of_nonneg_left hz hm
    have a1 := abs_le.1 (k (show 0 ≤ 1 - (ν : ℝ) by linarith) hH)
    have a2 := abs_le.1 (k (show 0 ≤ 2 - (ν : ℝ) by linarith) hg)
    have a3 := abs_le.1 (k hν0' hsec)
    have a4 := abs_le.1 (k (show 0 ≤ 1 - (ν : ℝ) by linarith) b')
    have a5 := abs_le.1 b
    have m1 : (2 - (ν : ℝ)) * (|(h : ℝ)| * F) ≤ 2 * (|(h : ℝ)| * F) := mul_le_mul_of_nonneg_right (by linarith) hG
    have m2 : (1 - (ν : ℝ)) * (B3 * (|(h : ℝ)| ^ 3 / 6)) ≤ 1 * (B3 * (|(h : ℝ)| ^ 3 / 6)) :=
      mul_le_mul_of_nonneg_right (by linarith) hB3
    rw [abs_le]
    constructor <;> linarith [a1.1, a1.2, a2.1, a2.2, a3.1, a3.2, a4.1, a4.2, a5.1, a5.2]

section
variable {σ : Type} {p : ProgOver σ DataArray} {dt : Int} {L e X T : Rat}

/-- One later call of a Leapfrog with `alpha = 1 / 2`. -/
theorem lf_step_pair (hu : 0 ≤ u) (hfl : Rounds u fl) (hJ : Convex ℝ J)
    (hy : SmoothDuring I w Q y J 2 D) (hd : GivesDicts p)
    {lf lf' : LFOver DataArray} (hν0 : 0 ≤ lf.strength) (hν : lf.strength ≤ 1) (hα : lf.alpha = 1 / 2)
    {s s' : σ} {o x st new : EState DataArray} {diag : Dict DataArray} {S H F : Rat} {τ : ℝ} (hold : lf.old = some o)
    (hτ : τ ∈ J) (hτh : τ + (seconds dt : ℝ) ∈ J) (hτ' : τ + -(seconds dt : ℝ) ∈ J)
    (hpair : PairNear I w Q y S H (seconds dt) τ o x)
    (hX : u ≠ 0 → StateSized I w X x) (hXo : u ≠ 0 → StateSized I w X o)
    (hrhs : ∀ r t, (p s x dt).2 = .ok r → convertTendenciesO (roundedArith fl conv) x r.1 = .ok t →
      (u ≠ 0 → TendSized I w T t) ∧ NearDerivative I w Q y F τ t)
    (h : LFOver.call (roundedArith fl conv) p lf s x dt = (lf', s', st, .ok (diag, new))) :
    PairNear I w Q y
      (S + 2 * |seconds dt| * F + D 3 / 3 * |seconds dt| ^ 3 + 2 * (((1 + u) ^ 11 - 1) * (3 * X + 3 * (|seconds dt| * T))))
      ((1 - lf.strength) * H + 2 * |seconds dt| * F + (lf.strength * (D 2 / 2 * |seconds dt| ^ 2) + D 3 / 3 * |seconds dt| ^ 3) +
        2 * (((1 + u) ^ 11 - 1) * (3 * X + 3 * (|seconds dt| * T)))) (seconds dt) (τ + (seconds dt : ℝ)) st new ∧
    lf'.strength = lf.strength ∧ lf'.alpha = lf.alpha ∧ lf'.old = some st := by
  obtain ⟨g1, g2, g3, r, t, n, hr, ht, hnew, hcase⟩ := lfOver_ok h
  obtain ⟨hTt, htn⟩ := hrhs r t hr ht
  rcases hcase with ⟨hnone, _⟩ | ⟨o', hsome, hn⟩
  · rw [hold] at hnone
    cases hnone
  rw [hold] at hsome
  injection hsome with hsome
  subst hsome
  refine ⟨?_, g1, g2, g3⟩
  have hnd : (Dict.keys t).Nodup := by
    rw [convertTendenciesO_keys ht]
    exact hd _ _ _ _ hr
  obtain ⟨_, hval⟩ := stepLeapfrogO_ok hnd hn
  intro q hq
  obtain ⟨oa, xa, x', a, ho, hxa, hx', ha, hv⟩ := hval q (htn q hq).1
  refine ⟨x', a, hx', by rw [hnew, (copyUntouchedO_spec _ _).2.1 q (Dict.mem_keys_of_get? ha), ha], fun ix hix => ?_⟩
  obtain ⟨ob, xb, hob, hxb, hpn⟩ := hpair q hq
  rw [ho] at hob
  rw [hxa] at hxb
  cases hob
  cases hxb
  have hvn := (htn q hq).2 ix hix
  obtain ⟨v1, v2⟩ := hv ix
  rw [v1, v2, hα]
  obtain ⟨t1, t2⟩ := lf_pair_near hν0 hν hJ hτ hτh hτ' (d := fun j => y j q ix) (B2 := D 2 * w q)
    (B3 := D 3 * w q) (fun j hj z hz => hy.deriv j hj q hq ix hix z hz)
    (fun z hz => hy.bound 2 (by omega) q hq ix hix z hz) (fun z hz => hy.bound 3 (by omega) q hq ix hix z hz)
    (hpn ix hix).1 (hpn ix hix).2 hvn
  have rounding : |(roundedLF fl lf.strength (1 / 2) (seconds dt) (oa.at' ix) (xa.at' ix) (tval t q ix)).1 -
        (roundedLF id lf.strength (1 / 2) (seconds dt) (oa.at' ix) (xa.at' ix) (tval t q ix)).1| ≤
        ((1 + u) ^ 11 - 1) * (3 * (X * w q) + 3 * (|seconds dt| * (T * w q))) ∧
      |(roundedLF fl lf.strength (1 / 2) (seconds dt) (oa.at' ix) (xa.at' ix) (tval t q ix)).2 -
        (roundedLF id lf.strength (1 / 2) (seconds dt) (oa.at' ix) (xa.at' ix) (tval t q ix)).2| ≤
        ((1 + u) ^ 11 - 1) * (3 * (X * w q) + 3 * (|seconds dt| * (T * w q))) := by
    by_cases hu0 : u = 0
    · have := roundedLF_near hu hfl hν0 hν (α := 1 / 2) (by norm_num) (by norm_num) (h := seconds dt) (o := oa.at' ix)
        (x := xa.at' ix) (v := tval t q ix) (X := max |oa.at' ix| |xa.at' ix|) (T := |tval t q ix|) (le_max_left _ _)
        (le_max_right _ _) (le_refl _)
      rw [hu0] at this ⊢
      simpa using this
    · exact roundedLF_near hu hfl hν0 hν (by norm_num) (by norm_num) (hXo hu0 q oa ho ix hix) (hX hu0 q xa hxa ix hix)
        (hTt hu0 q ix hix)
  have lift : ∀ {z z' : Rat}, |z - z'| ≤ ((1 + u) ^ 11 - 1) * (3 * (X * w q) + 3 * (|seconds dt| * (T * w q))) →
      |(z : ℝ) - (z' : ℝ)| ≤ ((((1 + u) ^ 11 - 1) * (3 * (X * w q) + 3 * (|seconds dt| * (T * w q))) : Rat) : ℝ) := by
    intro z z' h1
    rw [← Rat.cast_sub, ← Rat.cast_abs]
    exact_mod_cast h1
  have r1 := abs_le.1 (lift rounding.1)
  have r2 := abs_le.1 (lift rounding.2)
  have t1 := abs_le.1 t1
  have t2 := abs_le.1 t2
  rw [show τ + (seconds dt : ℝ) + -(seconds dt : ℝ) = τ by ring]
  push_cast at r1 r2 t1 t2 ⊢
  have hR : 2 * (((1 + (u : ℝ)) ^ 11 - 1) * (3 * (X * w q) + 3 * (|(seconds dt : ℝ)| * (T * w q)))) =
      2 * (((1 + (u : ℝ)) ^ 11 - 1) * (3 * X + 3 * (|(seconds dt : ℝ)| * T))) * w q := by ring
  have hF : 2 * |(seconds dt : ℝ)| * ((F : ℝ) * w q) = 2 * |(seconds dt : ℝ)| * F * w q := by ring
  have hD3 : (D 3 : ℝ) * w q / 3 * |(seconds dt : ℝ)| ^ 3 = D 3 / 3 * |(seconds dt : ℝ)| ^ 3 * w q := by ring
  have hD2 : (lf.strength : ℝ) * ((D 2 : ℝ) * w q / 2 * |(seconds dt : ℝ)| ^ 2) =
      lf.strength * (D 2 / 2 * |(seconds dt : ℝ)| ^ 2) * w q := by ring
  have hH : (1 - (lf.strength : ℝ)) * ((H : ℝ) * w q) = (1 - lf.strength) * H * w q := by ring
  rw [hF, hD3] at t1 t2
  rw [hD2, hH] at t2
  simp only [add_mul]
  constructor <;> rw [abs_le] <;> constructor <;> linarith [r1.1, r1.2, r2.1, r2.2, t1.1, t1.2, t2.1, t2.2]

/-! ## Runs -/

theorem lf_runs_pair (hu : 0 ≤ u) (hfl : Rounds u fl) (hw : ∀ q, 0 ≤ w q) (hJ : Convex ℝ J)
    (hy : SmoothDuring I w Q y J 2 D) (hD : ∀ j, 0 ≤ D j) (hL : 0 ≤ L) (he : 0 ≤ e) (hX : 0 ≤ X) (hT : 0 ≤ T)
    (hd : GivesDicts p) {ν : Rat} (hν : ν ≤ 1) (hlim : 2 * |seconds dt| * L ≤ ν)
    (inProps outProps : PropDict) (inst : String) (tid : Bool)
    {b : Dict DataArray → EState DataArray → EState DataArray}
    (hb : ∀ d x q, Q q → Dict.get? (b d x) q = Dict.get? x q) :
    ∀ (n : Nat) (S : Rat) (lf : LFOver DataArray) (s : σ) (o x : EState DataArray) (τ : ℝ) (lff : LFOver DataArray) (sf : σ)
      (xf : EState DataArray), 0 ≤ S → lf.strength = ν → lf.alpha = 1 / 2 → lf.old = some o →
      (∀ i ≤ n, τ + i * (seconds dt : ℝ) ∈ J) → τ + -(seconds dt : ℝ) ∈ J →
      PairNear I w Q y S (S + 2 * (D 2 / 2 * |seconds dt| ^ 2)) (seconds dt) τ o x →
      (∀ i < n, ∀ lfi si xi, runOver (tsCallO (roundedArith fl conv) inProps outProps inst tid
          (LFOver.call (roundedArith fl conv) p)) b dt i lf s x = (lfi, si, .ok xi) →
        (u ≠ 0 → StateSized I w X xi ∧ ∀ o, lfi.old = some o → StateSized I w X o) ∧
        ∀ r t, (p si xi dt).2 = .ok r → convertTendenciesO (roundedArith fl conv) xi r.1 = .ok t →
          (u ≠ 0 → TendSized I w T t) ∧
          ∀ E, 0 ≤ E → NearSolution I w Q y E (τ + i * (seconds dt : ℝ)) xi →
            NearDerivative I w Q y (L * E + e) (τ + i * (seconds dt : ℝ)) t) →
      runOver (tsCallO (roundedArith fl conv) inProps outProps inst tid (LFOver.call (roundedArith fl conv) p)) b dt n
        lf s x = (lff, sf, .ok xf) →
      NearSolution I w Q y ((1 + 2 * |seconds dt| * L) ^ n * (S + n * ((L * D 2 + D 3 / 3) * |seconds dt| ^ 3 +
        2 * lfAddedError u e X T (seconds dt))) + D 2 / 2 * |seconds dt| ^ 2) (τ + n * (seconds dt : ℝ)) xf := by
  intro n
  induction n with
  | zero =>
    intro S lf s o x τ lff sf xf _ _ _ _ _ _ hx _ h
    unfold runOver at h
    simp only [Prod.mk.injEq, Except.ok.injEq] at h
    rw [← h.2.2]
    have := hx.near
    rw [show (S + (S + 2 * (D 2 / 2 * |seconds dt| ^ 2))) / 2 = S + D 2 / 2 * |seconds dt| ^ 2 by ring] at this
    simpa using this
  | succ n ih =>
    intro S lf s o x τ lff sf xf hS hs1 ha1 ho hτ hτ' hx hrun h
    obtain ⟨hXx, hpx⟩ := hrun 0 (by omega) lf s x rfl
    unfold runOver at h
    rcases hc : tsCallO (roundedArith fl conv) inProps outProps inst tid
      (LFOver.call (roundedArith fl conv) p) lf s x dt with ⟨lf1, s1, st1, er | ⟨d1, new⟩⟩
    · rw [hc] at h; cases h
    rw [hc] at h
    dsimp only at h
    obtain ⟨d, m, hk, hnew⟩ := tsCallO_keeps hc
    have hτ0 : τ ∈ J := by simpa using hτ 0 (by omega)
    have hτ1 : τ + (seconds dt : ℝ) ∈ J := by simpa using hτ 1 (by omega)
    have hh := abs_nonneg (seconds dt)
    have hz : 0 ≤ 2 * |seconds dt| * L := by positivity
    have hP : 0 ≤ D 2 / 2 * |seconds dt| ^ 2 := mul_nonneg (div_nonneg (hD 2) (by norm_num)) (by positivity)
    have hP3 : 0 ≤ D 3 / 3 * |seconds dt| ^ 3 := mul_nonneg (div_nonneg (hD 3) (by norm_num)) (by positivity)
    have hν0 : 0 ≤ ν := le_trans hz hlim
    obtain ⟨c, o1, o2, o3⟩ := lf_step_pair (T := T)
      (F := L * ((S + (S + 2 * (D 2 / 2 * |seconds dt| ^ 2))) / 2) + e) hu hfl hJ hy hd (by rw [hs1]; exact hν0) (by rw [hs1]; exact hν) ha1 ho
      hτ0 hτ1 hτ' hx (fun h0 => (hXx h0).1) (fun h0 => (hXx h0).2 o ho)
      (fun r t hr ht => ⟨(hpx r t hr ht).1, by
        have := (hpx r t hr ht).2 ((S + (S + 2 * (D 2 / 2 * |seconds dt| ^ 2))) / 2) (by linarith)
          (by rw [Nat.cast_zero, zero_mul, add_zero]; exact hx.near)
        rw [Nat.cast_zero, zero_mul, add_zero] at this
        exact this⟩) hk
    rw [hs1] at c
    have hu11 := one_le_pow hu 11
    have hρ : 0 ≤ ((1 + u) ^ 11 - 1) * (3 * X + 3 * (|seconds dt| * T)) :=
      mul_nonneg (sub_nonneg.2 hu11) (by positivity)
    have hhe : 0 ≤ 2 * |seconds dt| * e := by positivity
    have hadd : lfAddedError u e X T (seconds dt) = 2 * |seconds dt| * e +
        ((1 + u) ^ 11 - 1) * (3 * X + 3 * (|seconds dt| * T)) := rfl
    have hg0 := lfAddedError_nonneg hu he hX hT (seconds dt)
    have hLD : 0 ≤ L * D 2 * |seconds dt| ^ 3 := mul_nonneg (mul_nonneg hL (hD 2)) (by positivity)
    have hF : 2 * |seconds dt| * (L * ((S + (S + 2 * (D 2 / 2 * |seconds dt| ^ 2))) / 2) + e) =
        2 * |seconds dt| * L * S + L * D 2 * |seconds dt| ^ 3 + 2 * |seconds dt| * e := by ring
    have hF' : 2 * |seconds dt| * L * (D 2 / 2 * |seconds dt| ^ 2) = L * D 2 * |seconds dt| ^ 3 := by ring
    have hcS : (L * D 2 + D 3 / 3) * |seconds dt| ^ 3 = L * D 2 * |seconds dt| ^ 3 + D 3 / 3 * |seconds dt| ^ 3 := by ring
    have hpair : PairNear I w Q y ((1 + 2 * |seconds dt| * L) * S + ((L * D 2 + D 3 / 3) * |seconds dt| ^ 3 +
        2 * lfAddedError u e X T (seconds dt))) ((1 + 2 * |seconds dt| * L) * S + ((L * D 2 + D 3 / 3) * |seconds dt| ^ 3 +
        2 * lfAddedError u e X T (seconds dt)) + 2 * (D 2 / 2 * |seconds dt| ^ 2)) (seconds dt) (τ + (seconds dt : ℝ)) st1 m := by
      refine c.mono hw ?_ ?_
      · rw [hF, hcS, hadd]
        linarith
      · rw [hF, hcS, hadd]
        have k1 : (1 - ν) * S ≤ S := by nlinarith
        have k2 : (1 - ν) * (2 * (D 2 / 2 * |seconds dt| ^ 2)) + ν * (D 2 / 2 * |seconds dt| ^ 2) ≤
            2 * (D 2 / 2 * |seconds dt| ^ 2) := by nlinarith
        linarith
    generalize hg : (L * D 2 + D 3 / 3) * |seconds dt| ^ 3 + 2 * lfAddedError u e X T (seconds dt) = g at *
    have hg1 : 0 ≤ g := by linarith
    generalize hK : 1 + 2 * |seconds dt| * L = K at *
    have hK1 : 1 ≤ K := by linarith
    have hS1 : 0 ≤ K * S + g := add_nonneg (mul_nonneg (by linarith) hS) hg1
    have hforw : ∀ i : Nat, τ + (seconds dt : ℝ) + i * (seconds dt : ℝ) = τ + (i + 1 : ℕ) * (seconds dt : ℝ) := by
      intro i
      push_cast
      ring
    have hres := ih _ lf1 s1 st1 (b d1 new) (τ + (seconds dt : ℝ)) lff sf xf hS1 (o1.trans hs1) (o2.trans ha1) o3
      (fun i hi => by rw [hforw]; exact hτ (i + 1) (by omega))
      (by rw [show τ + (seconds dt : ℝ) + -(seconds dt : ℝ) = τ by ring]; exact hτ0)
      (fun q hq => by
        obtain ⟨a, a', ha, ha', hv⟩ := hpair q hq
        refine ⟨a, a', ha, ?_, hv⟩
        rw [hb _ _ q hq, hnew, (copyUntouchedO_spec _ _).2.1 q (Dict.mem_keys_of_get? ha'), ha'])
      (fun i hi lfi si xi hri => by
        rw [hforw]
        refine hrun (i + 1) (by omega) lfi si xi ?_
        unfold runOver
        rw [hc]
        exact hri) h
    rw [hforw] at hres
    refine hres.mono hw ?_
    have h1 : 0 ≤ K ^ n * ((K - 1) * ((n + 1) * g)) :=
      mul_nonneg (pow_nonneg (by linarith) n) (mul_nonneg (by linarith) (mul_nonneg (by positivity) hg1))
    have h2 : K ^ (n + 1) * (S + (n + 1 : ℕ) * g) =
        K ^ n * (K * S + g + n * g) + K ^ n * ((K - 1) * ((n + 1) * g)) := by
      push_cast
      ring
    rw [h2]
    linarith

/-- C117: with `alpha = 1 / 2` (the default of the class), which leaves the sum of two values alone, a run of `n` steps of a
new Leapfrog with a filter of strength `ν ≤ 1`, with timesteps of at most `ν / (2 L)`, ends within
`K^n (2 E0 + D2 dt^2 + n ((L D2 + D3 / 3) dt^3 + other errors)) + D2 / 2 dt^2` of the solution: an error of second order
in spite of the filter. -/
theorem lf_run_converges_half (hu : 0 ≤ u) (hfl : Rounds u fl) (conv : DataArray → String → Except Err DataArray)
    (hw : ∀ q, 0 ≤ w q) (hJ : Convex ℝ J) (hy : SmoothDuring I w Q y J 2 D) (hD : ∀ j, 0 ≤ D j)
    (hL : 0 ≤ L) (he : 0 ≤ e) (hX : 0 ≤ X) (hT : 0 ≤ T) (hd : GivesDicts p)
    {ν : Rat} (hν : ν ≤ 1) (hlim : 2 * |seconds dt| * L ≤ ν)
    (inProps outProps : PropDict) (inst : String) (tid : Bool)
    {b : Dict DataArray → EState DataArray → EState DataArray}
    (hb : ∀ d x q, Q q → Dict.get? (b d x) q = Dict.get? x q) (n : Nat)
    {E0 : Rat} (hE0 : 0 ≤ E0) (s : σ) (x : EState DataArray) (t0 : ℝ) {lff : LFOver DataArray} {sf : σ}
    {xf : EState DataArray} (htimes : ∀ i ≤ n, t0 + i * (seconds dt : ℝ) ∈ J) (hx : NearSolution I w Q y E0 t0 x)
    (hrun : ∀ i < n, ∀ lfi si xi, runOver (tsCallO (roundedArith fl conv) inProps outProps inst tid
          (LFOver.call (roundedArith fl conv) p)) b dt i { strength := ν, alpha := 1 / 2 } s x = (lfi, si, .ok xi) →
        (u ≠ 0 → StateSized I w X xi ∧ ∀ o, lfi.old = some o → StateSized I w X o) ∧
        ∀ r t, (p si xi dt).2 = .ok r → convertTendenciesO (roundedArith fl conv) xi r.1 = .ok t →
          (u ≠ 0 → TendSized I w T t) ∧
          ∀ E, 0 ≤ E → NearSolution I w Q y E (t0 + i * (seconds dt : ℝ)) xi →
            NearDerivative I w Q y (L * E + e) (t0 + i * (seconds dt : ℝ)) t)
    (h : runOver (tsCallO (roundedArith fl conv) inProps outProps inst tid (LFOver.call (roundedArith fl conv) p)) b dt n
        { strength := ν, alpha := 1 / 2 } s x = (lff, sf, .ok xf)) :
    NearSolution I w Q y ((1 + 2 * |seconds dt| * L) ^ n * (2 * E0 + D 2 * |seconds dt| ^ 2 +
      n * ((L * D 2 + D 3 / 3) * |seconds dt| ^ 3 + 2 * lfAddedError u e X T (seconds dt))) + D 2 / 2 * |seconds dt| ^ 2)
      (t0 + n * (seconds dt : ℝ)) xf := by
  have hh := abs_nonneg (seconds dt)
  have hz : 0 ≤ 2 * |seconds dt| * L := by positivity
  have hP : 0 ≤ D 2 / 2 * |seconds dt| ^ 2 := mul_nonneg (div_nonneg (hD 2) (by norm_num)) (by positivity)
  have hP3 : 0 ≤ D 3 / 3 * |seconds dt| ^ 3 := mul_nonneg (div_nonneg (hD 3) (by norm_num)) (by positivity)
  have hLD : 0 ≤ L * D 2 * |seconds dt| ^ 3 := mul_nonneg (mul_nonneg hL (hD 2)) (by positivity)
  have hν0 : 0 ≤ ν := le_trans hz hlim
  have hg0 := lfAddedError_nonneg hu he hX hT (seconds dt)
  have hcS : (L * D 2 + D 3 / 3) * |seconds dt| ^ 3 = L * D 2 * |seconds dt| ^ 3 + D 3 / 3 * |seconds dt| ^ 3 := by ring
  cases n with
  | zero =>
    unfold runOver at h
    simp only [Prod.mk.injEq, Except.ok.injEq] at h
    rw [← h.2.2]
    have e0 : t0 + ((0 : Nat) : ℝ) * (seconds dt : ℝ) = t0 := by simp
    rw [e0]
    refine hx.mono hw ?_
    rw [pow_zero, Nat.cast_zero, zero_mul]
    linarith
  | succ n =>
    obtain ⟨hXx, hpx⟩ := hrun 0 (by omega) _ s x rfl
    unfold runOver at h
    rcases hc : tsCallO (roundedArith fl conv) inProps outProps inst tid
      (LFOver.call (roundedArith fl conv) p) { strength := ν, alpha := 1 / 2 } s x dt with ⟨lf1, s1, st1, er | ⟨d1, new⟩⟩
    · rw [hc] at h; cases h
    rw [hc] at h
    dsimp only at h
    obtain ⟨d, m, hk, hnew⟩ := tsCallO_keeps hc
    have hτ0 : t0 ∈ J := by simpa using htimes 0 (by omega)
    have hτ1 : t0 + (seconds dt : ℝ) ∈ J := by simpa using htimes 1 (by omega)
    obtain ⟨c1, c2, o1, o2, o3⟩ := lf_step_near (T := T) (L := L) hu hfl hw hJ hy hD hL he hX hT
      (lf := { strength := ν, alpha := 1 / 2 }) hν0 hν (by norm_num) (by norm_num) hE0 hτ0 hτ1 hx (fun o ho => by cases ho)
      (fun h0 => (hXx h0).1) (fun h0 => (hXx h0).2) (fun r hr => hd _ _ _ _ hr)
      (fun r t hr ht => ⟨(hpx r t hr ht).1, by
        have := (hpx r t hr ht).2 E0 hE0 (by simpa using hx)
        simpa using this⟩) hk
    have hfirst : (1 + 2 * |seconds dt| * L) * E0 + lfAddedError u e X T (seconds dt) +
        lfStepError ν D (seconds dt) (if (none : Option (EState DataArray)) = none then 0 else 1) =
        (1 + 2 * |seconds dt| * L) * E0 + lfAddedError u e X T (seconds dt) + D 2 / 2 * |seconds dt| ^ 2 := by
      unfold lfStepError
      rw [if_pos rfl, if_pos rfl]
    dsimp only at c1 c2
    rw [hfirst] at c1 c2
    have hE1 : 0 ≤ (1 + 2 * |seconds dt| * L) * E0 + lfAddedError u e X T (seconds dt) + D 2 / 2 * |seconds dt| ^ 2 := by
      have := mul_nonneg (add_nonneg zero_le_one hz) hE0
      linarith
    generalize hE1e : (1 + 2 * |seconds dt| * L) * E0 + lfAddedError u e X T (seconds dt) + D 2 / 2 * |seconds dt| ^ 2 = E1 at *
    have hback : t0 + (seconds dt : ℝ) + -(seconds dt : ℝ) = t0 := by ring
    have hpair := (PairNear.of_near (h := (seconds dt : ℝ)) (τ := t0 + (seconds dt : ℝ)) (by rw [hback]; exact c2) c1)
    have hforw : ∀ i : Nat, t0 + (seconds dt : ℝ) + i * (seconds dt : ℝ) = t0 + (i + 1 : ℕ) * (seconds dt : ℝ) := by
      intro i
      push_cast
      ring
    have hres := lf_runs_pair hu hfl hw hJ hy hD hL he hX hT hd hν hlim inProps outProps inst tid hb n (2 * E1) lf1 s1 st1
      (b d1 new) (t0 + (seconds dt : ℝ)) lff sf xf (by linarith) o1 o2 o3
      (fun i hi => by rw [hforw]; exact htimes (i + 1) (by omega)) (by rw [hback]; exact hτ0)
      (fun q hq => by
        obtain ⟨a, a', ha, ha', hv⟩ := (hpair.mono hw (le_refl _)
          (show 2 * E1 ≤ 2 * E1 + 2 * (D 2 / 2 * |seconds dt| ^ 2) by linarith)) q hq
        refine ⟨a, a', ha, ?_, hv⟩
        rw [hb _ _ q hq, hnew, (copyUntouchedO_spec _ _).2.1 q (Dict.mem_keys_of_get? ha'), ha'])
      (fun i hi lfi si xi hri => by
        rw [hforw]
        refine hrun (i + 1) (by omega) lfi si xi ?_
        unfold runOver
        rw [hc]
        exact hri) h
    rw [hforw] at hres
    refine hres.mono hw ?_
    generalize hg : (L * D 2 + D 3 / 3) * |seconds dt| ^ 3 + 2 * lfAddedError u e X T (seconds dt) = g at *
    have hg1 : 2 * lfAddedError u e X T (seconds dt) ≤ g := by linarith
    generalize hK : 1 + 2 * |seconds dt| * L = K at *
    have hK1 : 1 ≤ K := by linarith
    have hD2 : D 2 * |seconds dt| ^ 2 = 2 * (D 2 / 2 * |seconds dt| ^ 2) := by ring
    rw [hD2]
    generalize D 2 / 2 * |seconds dt| ^ 2 = P at *
    have h0 : 2 * E1 + n * g ≤ K * (2 * E0 + 2 * P + (n + 1 : ℕ) * g) := by
      have h1 : 0 ≤ (K - 1) * (2 * P + (n + 1 : ℕ) * g) :=
        mul_nonneg (by linarith) (add_nonneg (by linarith) (mul_nonneg (by positivity) (by linarith)))
      push_cast at h1 ⊢
      nlinarith
    have h2 := mul_le_mul_of_nonneg_left h0 (pow_nonneg (by linarith : (0 : Rat) ≤ K) n)
    rw [pow_succ, mul_assoc]
    linarith

/-- C117: such runs in exact arithmetic over the time `span = n dt`: an error of second order in the timestep. -/
theorem lf_run_second_order_half (R : Registry) (hw : ∀ q, 0 ≤ w q) (hJ : Convex ℝ J)
    (hy : SmoothDuring I w Q y J 2 D) (hD : ∀ j, 0 ≤ D j) (hL : 0 ≤ L) (hd : GivesDicts p)
    {ν : Rat} (hν : ν ≤ 1) (hlim : 2 * |seconds dt| * L ≤ ν)
    (inProps outProps : PropDict) (inst : String) (tid : Bool)
    {b : Dict DataArray → EState DataArray → EState DataArray}
    (hb : ∀ d x q, Q q → Dict.get? (b d x) q = Dict.get? x q) (n : Nat)
    (s : σ) (x : EState DataArray) (t0 : ℝ) {lff : LFOver DataArray} {sf : σ}
    {xf : EState DataArray} (htimes : ∀ i ≤ n, t0 + i * (seconds dt : ℝ) ∈ J) (hx : NearSolution I w Q y 0 t0 x)
    (hrhs : ∀ i < n, ∀ si xi r t E, (p si xi dt).2 = .ok r → convertTendenciesO (dataArrayArith R) xi r.1 = .ok t →
      0 ≤ E → NearSolution I w Q y E (t0 + i * (seconds dt : ℝ)) xi →
        NearDerivative I w Q y (L * E) (t0 + i * (seconds dt : ℝ)) t)
    (h : runOver (tsCallO (dataArrayArith R) inProps outProps inst tid (LFOver.call (dataArrayArith R) p)) b dt n
        { strength := ν, alpha := 1 / 2 } s x = (lff, sf, .ok xf)) :
    ∀ q, Q q → ∃ a, Dict.get? xf q = some (.da a) ∧ ∀ ix, I ix →
      |(a.at' ix : ℝ) - y 0 q ix (t0 + n * (seconds dt : ℝ))| ≤ (Real.exp (2 * L * (n * |(seconds dt : ℝ)|)) *
        (D 2 + (L * D 2 + D 3 / 3) * (n * |(seconds dt : ℝ)|)) + D 2 / 2) * |(seconds dt : ℝ)| ^ 2 * w q := by
  rw [← roundedArith_id R] at h hrhs
  have main := lf_run_converges_half (u := 0) (fl := id) (le_refl 0) id_rounds _ hw hJ hy hD hL (le_refl (0 : Rat))
    (le_refl (0 : Rat)) (le_refl (0 : Rat)) hd hν hlim inProps outProps inst tid hb n (le_refl (0 : Rat)) s x t0 htimes
    hx (fun i hi lfi si xi _ => ⟨fun h0 => absurd rfl h0, fun r t hr ht => ⟨fun h0 => absurd rfl h0, fun E hE hne => by
      rw [add_zero]
      exact hrhs i hi si xi r t E hr ht hE hne⟩⟩) h
  have hadd : lfAddedError 0 0 0 0 (seconds dt) = 0 := by
    unfold lfAddedError
    simp
  simp only [hadd, mul_zero, add_zero, zero_add] at main
  intro q hq
  obtain ⟨a, ha, hv⟩ := main q hq
  refine ⟨a, ha, fun ix hix => le_trans (hv ix hix) ?_⟩
  have hwq : (0 : ℝ) ≤ w q := by exact_mod_cast hw q
  refine mul_le_mul_of_nonneg_right ?_ hwq
  have hh : (0 : ℝ) ≤ |(seconds dt : ℝ)| := abs_nonneg _
  have hL' : (0 : ℝ) ≤ L := by exact_mod_cast hL
  have hD2 : (0 : ℝ) ≤ D 2 := by exact_mod_cast hD 2
  have hD3 : (0 : ℝ) ≤ D 3 := by exact_mod_cast hD 3
  have hK : (1 + 2 * |(seconds dt : ℝ)| * L) ^ n ≤ Real.exp (2 * L * (n * |(seconds dt : ℝ)|)) := by
    have h1 : 1 + 2 * |(seconds dt : ℝ)| * L ≤ Real.exp (2 * |(seconds dt : ℝ)| * L) := by
      have := Real.add_one_le_exp (2 * |(seconds dt : ℝ)| * L)
      linarith
    refine le_trans (pow_le_pow_left₀ (by positivity) h1 n) (le_of_eq ?_)
    rw [← Real.exp_nat_mul]
    congr 1
    ring
  have hpos : (0 : ℝ) ≤ (D 2 + (L * D 2 + D 3 / 3) * (n * |(seconds dt : ℝ)|)) * |(seconds dt : ℝ)| ^ 2 := by positivity
  have := mul_le_mul_of_nonneg_right hK hpos
  push_cast
  refine le_trans (le_of_eq ?_) (le_trans (add_le_add this (le_refl ((D 2 : ℝ) / 2 * |(seconds dt : ℝ)| ^ 2))) (le_of_eq ?_))
  · ring
  · ring

end

/-! ## Non-vacuity -/

/-- a run of any number of steps with the default filter, with timesteps of at most a quarter of a second (the timescale of
the component is ten seconds): an error of second order in the timestep -/
example (dt : Int) (hdt : 0 ≤ dt) (hlim : dt ≤ 250000) (n : Nat) {lff : LFOver DataArray} {xf : EState DataArray}
    (h : runOver (tsCallO (dataArrayArith Demo.reg) [] [] "" false
      (LFOver.call (dataArrayArith Demo.reg) (Demo.fades (dataArrayArith Demo.reg)))) (fun _ s => s)
      dt n { strength := 1 / 20, alpha := 1 / 2 } () (Demo.scalarT 7) = (lff, (), .ok xf)) :
    ∃ a, Dict.get? xf "T" = some (.da a) ∧ |(a.at' (fun _ => 0) : ℝ) - 7 * Real.exp (-((n * (seconds dt : ℝ)) / 10))| ≤
      (Real.exp (1 / 5 * (n * (seconds dt : ℝ))) * (7 / 100 + 7 / 750 * (n * (seconds dt : ℝ))) + 7 / 200) *
        (seconds dt : ℝ) ^ 2 := by
  have hs0 : (0 : ℝ) ≤ (seconds dt : ℝ) := by
    unfold seconds
    push_cast
    have : (0 : ℝ) ≤ (dt : ℝ) := by exact_mod_cast hdt
    positivity
  have hl : 2 * |seconds dt| * (1 / 10) ≤ 1 / 20 := by
    have h0 : (0 : Rat) ≤ (dt : Rat) := by exact_mod_cast hdt
    have h1 : (dt : Rat) ≤ 250000 := by exact_mod_cast hlim
    unfold seconds
    rw [abs_of_nonneg (by positivity)]
    linarith
  obtain ⟨a, ha, hv⟩ := lf_run_second_order_half Demo.reg (fun _ => by norm_num) (convex_Ici 0)
    (Demo.fading_smooth 2) (fun j => by positivity) (L := 1 / 10) (by norm_num) (Demo.fades_dicts _) (ν := 1 / 20)
    (by norm_num) hl [] [] "" false (b := fun _ s => s)
    (fun _ _ _ _ => rfl) n () (Demo.scalarT 7) 0
    (fun i _ => by
      show (0 : ℝ) ≤ 0 + i * (seconds dt : ℝ)
      positivity) Demo.fading_starts
    (fun i _ si xi r t E hr ht _ hne => by
      rw [← roundedArith_id] at hr ht
      have := Demo.fades_rhs (u := 0) (X := 0) (le_refl 0) id_rounds (fun h0 => absurd rfl h0) hne hr ht
      simpa using this) h "T" rfl
  refine ⟨a, ha, ?_⟩
  have := hv (fun _ => 0) rfl
  rw [abs_of_nonneg hs0, zero_add] at this
  unfold Demo.fading at this
  rw [pow_zero, one_mul] at this
  refine le_trans this (le_of_eq ?_)
  push_cast
  rw [show (2 * (1 / 10) * (n * (seconds dt : ℝ)) : ℝ) = 1 / 5 * (n * (seconds dt : ℝ)) by ring]
  ring

end Verif
