import Verif.Props.RelaxationLimits
import Mathlib.Analysis.SpecialFunctions.ExpDeriv
import Mathlib.Analysis.Calculus.Deriv.MeanValue
import Mathlib.Analysis.Calculus.Deriv.Pow
/-!
# C103: how far the schemes are from exponential decay

`z` is the timestep in timescales.  The exact solution of `y' = -y`, `y(0) = 1` at step `n` is
`exp (-(n z))`.
-/

namespace Verif

open Real

/-! ## Taylor polynomials of the exponential -/

theorem nonneg_of_deriv {f f' : ℝ → ℝ} (h : ∀ x, HasDerivAt f (f' x) x) (h0 : f 0 = 0) (hf : ∀ x, 0 ≤ x → 0 ≤ f' x)
    {x : ℝ} (hx : 0 ≤ x) : 0 ≤ f x := by
  have hm : MonotoneOn f (Set.Ici 0) := by
    refine monotoneOn_of_deriv_nonneg (convex_Ici 0) (fun y _ => (h y).continuousAt.continuousWithinAt)
      (fun y _ => (h y).differentiableAt.differentiableWithinAt) fun y hy => ?_
    rw [interior_Ici] at hy
    rw [(h y).deriv]
    exact hf y (le_of_lt hy)
  have := hm (Set.mem_Ici.2 (le_refl 0)) (Set.mem_Ici.2 hx) hx
  rwa [h0] at this

theorem exp_neg_deriv (x : ℝ) : HasDerivAt (fun x => exp (-x)) (-exp (-x)) x := by
  have := ((hasDerivAt_neg x).exp)
  simpa using this

theorem taylor1 {x : ℝ} (hx : 0 ≤ x) : 0 ≤ 1 - exp (-x) := by
  have : exp (-x) ≤ 1 := Real.exp_le_one_iff.2 (by linarith)
  linarith

theorem taylor2 {x : ℝ} (_ : 0 ≤ x) : 0 ≤ exp (-x) - (1 - x) := by
  have := Real.add_one_le_exp (-x)
  linarith

theorem taylor3 {x : ℝ} (hx : 0 ≤ x) : 0 ≤ 1 - x + x ^ 2 / 2 - exp (-x) := by
  refine nonneg_of_deriv (f := fun x => 1 - x + x ^ 2 / 2 - exp (-x)) (f' := fun x => exp (-x) - (1 - x))
    (fun x => ?_) (by simp) (fun x hx => taylor2 hx) hx
  have h := ((((hasDerivAt_const x (1 : ℝ)).sub (hasDerivAt_id x)).add ((hasDerivAt_pow 2 x).div_const 2)).sub
    (exp_neg_deriv x))
  refine HasDerivAt.congr_deriv h ?_
  push_cast
  ring

theorem taylor4 {x : ℝ} (hx : 0 ≤ x) : 0 ≤ exp (-x) - (1 - x + x ^ 2 / 2 - x ^ 3 / 6) := by
  refine nonneg_of_deriv (f := fun x => exp (-x) - (1 - x + x ^ 2 / 2 - x ^ 3 / 6))
    (f' := fun x => 1 - x + x ^ 2 / 2 - exp (-x)) (fun x => ?_) (by simp) (fun x hx => taylor3 hx) hx
  have h := (exp_neg_deriv x).sub ((((hasDerivAt_const x (1 : ℝ)).sub (hasDerivAt_id x)).add
    ((hasDerivAt_pow 2 x).div_const 2)).sub ((hasDerivAt_pow 3 x).div_const 6))
  refine HasDerivAt.congr_deriv h ?_
  push_cast
  ring

theorem taylor5 {x : ℝ} (hx : 0 ≤ x) : 0 ≤ 1 - x + x ^ 2 / 2 - x ^ 3 / 6 + x ^ 4 / 24 - exp (-x) := by
  refine nonneg_of_deriv (f := fun x => 1 - x + x ^ 2 / 2 - x ^ 3 / 6 + x ^ 4 / 24 - exp (-x))
    (f' := fun x => exp (-x) - (1 - x + x ^ 2 / 2 - x ^ 3 / 6)) (fun x => ?_) (by simp) (fun x hx => taylor4 hx) hx
  have h := (((((hasDerivAt_const x (1 : ℝ)).sub (hasDerivAt_id x)).add
    ((hasDerivAt_pow 2 x).div_const 2)).sub ((hasDerivAt_pow 3 x).div_const 6)).add
    ((hasDerivAt_pow 4 x).div_const 24)).sub (exp_neg_deriv x)
  refine HasDerivAt.congr_deriv h ?_
  push_cast
  ring

theorem taylor6 {x : ℝ} (hx : 0 ≤ x) : 0 ≤ exp (-x) - (1 - x + x ^ 2 / 2 - x ^ 3 / 6 + x ^ 4 / 24 - x ^ 5 / 120) := by
  refine nonneg_of_deriv (f := fun x => exp (-x) - (1 - x + x ^ 2 / 2 - x ^ 3 / 6 + x ^ 4 / 24 - x ^ 5 / 120))
    (f' := fun x => 1 - x + x ^ 2 / 2 - x ^ 3 / 6 + x ^ 4 / 24 - exp (-x)) (fun x => ?_) (by simp)
    (fun x hx => taylor5 hx) hx
  have h := (exp_neg_deriv x).sub ((((((hasDerivAt_const x (1 : ℝ)).sub (hasDerivAt_id x)).add
    ((hasDerivAt_pow 2 x).div_const 2)).sub ((hasDerivAt_pow 3 x).div_const 6)).add
    ((hasDerivAt_pow 4 x).div_const 24)).sub ((hasDerivAt_pow 5 x).div_const 120))
  refine HasDerivAt.congr_deriv h ?_
  push_cast
  ring

/-! ## What one step of a scheme makes of exact values -/

section Local

variable {z : ℝ} (hz : 0 ≤ z)
include hz

theorem local1 : |exp (-z) - (1 - z)| ≤ z ^ 2 / 2 := by
  rw [abs_le]
  constructor <;> linarith [taylor2 hz, taylor3 hz, sq_nonneg z]

theorem local2 : |exp (-(2 * z)) - (exp (-z) - z * (3 / 2 * exp (-z) - 1 / 2))| ≤ 4 / 3 * z ^ 3 := by
  have h2 : 0 ≤ 2 * z := by linarith
  have a1 := taylor3 h2
  have a2 := taylor4 h2
  have b1 := taylor3 hz
  have b2 := taylor4 hz
  have c1 := mul_nonneg hz (taylor2 hz)
  have c2 := mul_nonneg hz (taylor3 hz)
  have p := pow_nonneg hz 3
  rw [abs_le]
  constructor <;> nlinarith

theorem local3 : |exp (-(3 * z)) - (exp (-(2 * z)) - z * (23 / 12 * exp (-(2 * z)) - 16 / 12 * exp (-z) + 5 / 12))| ≤
    18 / 5 * z ^ 4 := by
  have h2 : 0 ≤ 2 * z := by linarith
  have h3 : 0 ≤ 3 * z := by linarith
  have a1 := taylor4 h3
  have a2 := taylor5 h3
  have b1 := taylor4 h2
  have b2 := taylor5 h2
  have c1 := mul_nonneg hz (taylor3 h2)
  have c2 := mul_nonneg hz (taylor4 h2)
  have d1 := mul_nonneg hz (taylor3 hz)
  have d2 := mul_nonneg hz (taylor4 hz)
  have p := pow_nonneg hz 4
  rw [abs_le]
  constructor <;> nlinarith

theorem local4 : |exp (-(4 * z)) - (exp (-(3 * z)) - z * (55 / 24 * exp (-(3 * z)) - 59 / 24 * exp (-(2 * z)) +
    37 / 24 * exp (-z) - 9 / 24))| ≤ 51 / 5 * z ^ 5 := by
  have h2 : 0 ≤ 2 * z := by linarith
  have h3 : 0 ≤ 3 * z := by linarith
  have h4 : 0 ≤ 4 * z := by linarith
  have a1 := taylor5 h4
  have a2 := taylor6 h4
  have b1 := taylor5 h3
  have b2 := taylor6 h3
  have c1 := mul_nonneg hz (taylor4 h3)
  have c2 := mul_nonneg hz (taylor5 h3)
  have d1 := mul_nonneg hz (taylor4 h2)
  have d2 := mul_nonneg hz (taylor5 h2)
  have e1 := mul_nonneg hz (taylor4 hz)
  have e2 := mul_nonneg hz (taylor5 hz)
  have p := pow_nonneg hz 5
  rw [abs_le]
  constructor <;> nlinarith

theorem localLF : |exp (-(2 * z)) - (1 - 2 * z * exp (-z))| ≤ 4 / 3 * z ^ 3 := by
  have h2 : 0 ≤ 2 * z := by linarith
  have a1 := taylor3 h2
  have a2 := taylor4 h2
  have c1 := mul_nonneg hz (taylor2 hz)
  have c2 := mul_nonneg hz (taylor3 hz)
  have p := pow_nonneg hz 3
  rw [abs_le]
  constructor <;> nlinarith

theorem localRK (three : Bool) : |exp (-z) - (1 - z + z ^ 2 / 2 - if three then z ^ 3 / 6 else 0)| ≤
    if three then z ^ 4 / 24 else z ^ 3 / 6 := by
  have p3 := pow_nonneg hz 3
  have p4 := pow_nonneg hz 4
  cases three <;> simp only [if_true, Bool.false_eq_true, if_false] <;> rw [abs_le] <;>
    constructor <;> linarith [taylor3 hz, taylor4 hz, taylor5 hz]

end Local

/-! ## Whole runs -/

theorem pow_close {a b : ℝ} (ha : |a| ≤ 1) (hb : |b| ≤ 1) (n : ℕ) : |a ^ n - b ^ n| ≤ n * |a - b| := by
  induction n with
  | zero => simp
  | succ n ih =>
    rw [show a ^ (n + 1) - b ^ (n + 1) = a * (a ^ n - b ^ n) + (a - b) * b ^ n by ring]
    have h1 : |a * (a ^ n - b ^ n)| ≤ n * |a - b| := by
      rw [abs_mul]
      calc |a| * |a ^ n - b ^ n| ≤ 1 * |a ^ n - b ^ n| := mul_le_mul_of_nonneg_right ha (abs_nonneg _)
        _ ≤ n * |a - b| := by rw [one_mul]; exact ih
    have h2 : |(a - b) * b ^ n| ≤ |a - b| := by
      rw [abs_mul, abs_pow]
      exact mul_le_of_le_one_right (abs_nonneg _) (pow_le_one₀ (abs_nonneg _) hb)
    push_cast
    linarith [abs_add_le (a * (a ^ n - b ^ n)) ((a - b) * b ^ n)]

theorem exp_mul_nat (z : ℝ) (n : ℕ) : exp (-(n * z)) = exp (-z) ^ n := by
  rw [← Real.exp_nat_mul]
  congr 1
  ring

theorem exp_steps (z : ℝ) (n j : ℕ) : exp (-((n + j : ℕ) * z)) = exp (-(n * z)) * exp (-(j * z)) := by
  rw [← Real.exp_add]
  congr 1
  push_cast
  ring

theorem exp_decay_le {z : ℝ} (hz : 0 ≤ z) (n : ℕ) : 0 < exp (-(n * z)) ∧ exp (-(n * z)) ≤ 1 :=
  ⟨Real.exp_pos _, Real.exp_le_one_iff.2 (by have := mul_nonneg (Nat.cast_nonneg (α := ℝ) n) hz; linarith)⟩

/-- How far `n` steps are from the exact value. -/
noncomputable def gap (d : ℕ → Rat) (z : Rat) (n : ℕ) : ℝ := (d n : ℝ) - exp (-(n * (z : ℝ)))

theorem rk_gap {z : Rat} (h0 : 0 ≤ z) (h1 : z ≤ 1) (three : Bool) (n : ℕ) :
    |gap (fun n => rkDecay three z ^ n) z n| ≤ n * (if three then (z : ℝ) ^ 4 / 24 else (z : ℝ) ^ 3 / 6) := by
  have hz : (0 : ℝ) ≤ z := by exact_mod_cast h0
  have hz1 : (z : ℝ) ≤ 1 := by exact_mod_cast h1
  have hl := localRK hz three
  have e : ((rkDecay three z : Rat) : ℝ) = 1 - (z : ℝ) + (z : ℝ) ^ 2 / 2 - if three then (z : ℝ) ^ 3 / 6 else 0 := by
    unfold rkDecay
    cases three <;> push_cast <;> simp
  have ha : |((rkDecay three z : Rat) : ℝ)| ≤ 1 := by
    rw [e, abs_le]
    cases three <;> simp only [if_true, Bool.false_eq_true, if_false] <;> constructor <;> nlinarith [pow_nonneg hz 2, pow_nonneg hz 3]
  have hb : |exp (-(z : ℝ))| ≤ 1 := by
    rw [abs_of_pos (Real.exp_pos _)]
    exact Real.exp_le_one_iff.2 (by linarith)
  unfold gap
  rw [exp_mul_nat]
  push_cast
  refine (pow_close ha hb n).trans (mul_le_mul_of_nonneg_left ?_ (Nat.cast_nonneg n))
  rw [e, abs_sub_comm]
  exact hl

theorem ab1_gap {z : Rat} (h0 : 0 ≤ z) (h1 : z ≤ 1) (n : ℕ) : |gap (abDecay 1 z) z n| ≤ n * ((z : ℝ) ^ 2 / 2) := by
  have hz : (0 : ℝ) ≤ z := by exact_mod_cast h0
  have hz1 : (z : ℝ) ≤ 1 := by exact_mod_cast h1
  unfold gap
  rw [exp_mul_nat, abDecay_one]
  push_cast
  refine (pow_close ?_ ?_ n).trans (mul_le_mul_of_nonneg_left ?_ (Nat.cast_nonneg n))
  · rw [abs_le]
    constructor <;> linarith
  · rw [abs_of_pos (Real.exp_pos _)]
    exact Real.exp_le_one_iff.2 (by linarith)
  · rw [abs_sub_comm]
    exact local1 hz

theorem gap_zero (k : ℕ) (z : Rat) : gap (abDecay k z) z 0 = 0 := by
  unfold gap
  rw [abDecay_zero]
  simp

theorem gap_one {k : ℕ} (hk : 1 ≤ k) (z : Rat) : gap (abDecay k z) z 1 = 1 - (z : ℝ) - exp (-(z : ℝ)) := by
  unfold gap
  rw [abDecay_succ, show min k (0 + 1) = 1 by omega]
  simp [abFormula, abCoef, abDecay_zero]
  ring

/-- One step of the scheme: what the distance becomes, up to the error of the step. -/
theorem gap_two (d : ℕ → Rat) (z : Rat) (h0 : 0 ≤ z) (n : ℕ)
    (h : d (n + 2) = d (n + 1) - z * (3 / 2 * d (n + 1) - 1 / 2 * d n)) :
    |gap d z (n + 2) - ((1 - 3 / 2 * z) * gap d z (n + 1) + z / 2 * gap d z n)| ≤ 4 / 3 * (z : ℝ) ^ 3 := by
  have hz : (0 : ℝ) ≤ z := by exact_mod_cast h0
  unfold gap
  rw [h, exp_steps _ n 2, exp_steps _ n 1]
  obtain ⟨p, p1⟩ := exp_decay_le hz n
  have hl := local2 hz
  push_cast
  rw [one_mul]
  set u := exp (-(n * (z : ℝ)))
  rw [show (d (n + 1) : ℝ) - z * (3 / 2 * d (n + 1) - 1 / 2 * d n) - u * exp (-(2 * (z : ℝ))) -
      ((1 - 3 / 2 * z) * (d (n + 1) - u * exp (-(z : ℝ))) + z / 2 * (d n - u)) =
      -(u * (exp (-(2 * (z : ℝ))) - (exp (-(z : ℝ)) - z * (3 / 2 * exp (-(z : ℝ)) - 1 / 2)))) by ring,
    abs_neg, abs_mul, abs_of_pos p]
  exact (mul_le_of_le_one_left (abs_nonneg _) p1).trans hl

theorem gap_three (d : ℕ → Rat) (z : Rat) (h0 : 0 ≤ z) (n : ℕ)
    (h : d (n + 3) = d (n + 2) - z * (23 / 12 * d (n + 2) - 16 / 12 * d (n + 1) + 5 / 12 * d n)) :
    |gap d z (n + 3) - ((1 - 23 / 12 * z) * gap d z (n + 2) + 16 / 12 * z * gap d z (n + 1) - 5 / 12 * z * gap d z n)| ≤
      18 / 5 * (z : ℝ) ^ 4 := by
  have hz : (0 : ℝ) ≤ z := by exact_mod_cast h0
  unfold gap
  rw [h, exp_steps _ n 3, exp_steps _ n 2, exp_steps _ n 1]
  obtain ⟨p, p1⟩ := exp_decay_le hz n
  have hl := local3 hz
  push_cast
  rw [one_mul]
  set u := exp (-(n * (z : ℝ)))
  rw [show (d (n + 2) : ℝ) - z * (23 / 12 * d (n + 2) - 16 / 12 * d (n + 1) + 5 / 12 * d n) - u * exp (-(3 * (z : ℝ))) -
      ((1 - 23 / 12 * z) * (d (n + 2) - u * exp (-(2 * (z : ℝ)))) + 16 / 12 * z * (d (n + 1) - u * exp (-(z : ℝ))) -
        5 / 12 * z * (d n - u)) =
      -(u * (exp (-(3 * (z : ℝ))) - (exp (-(2 * (z : ℝ))) - z * (23 / 12 * exp (-(2 * (z : ℝ))) -
        16 / 12 * exp (-(z : ℝ)) + 5 / 12)))) by ring,
    abs_neg, abs_mul, abs_of_pos p]
  exact (mul_le_of_le_one_left (abs_nonneg _) p1).trans hl

theorem gap_four (d : ℕ → Rat) (z : Rat) (h0 : 0 ≤ z) (n : ℕ)
    (h : d (n + 4) = d (n + 3) - z * (55 / 24 * d (n + 3) - 59 / 24 * d (n + 2) + 37 / 24 * d (n + 1) - 9 / 24 * d n)) :
    |gap d z (n + 4) - ((1 - 55 / 24 * z) * gap d z (n + 3) + 59 / 24 * z * gap d z (n + 2) -
      37 / 24 * z * gap d z (n + 1) + 9 / 24 * z * gap d z n)| ≤ 51 / 5 * (z : ℝ) ^ 5 := by
  have hz : (0 : ℝ) ≤ z := by exact_mod_cast h0
  unfold gap
  rw [h, exp_steps _ n 4, exp_steps _ n 3, exp_steps _ n 2, exp_steps _ n 1]
  obtain ⟨p, p1⟩ := exp_decay_le hz n
  have hl := local4 hz
  push_cast
  rw [one_mul]
  set u := exp (-(n * (z : ℝ)))
  rw [show (d (n + 3) : ℝ) - z * (55 / 24 * d (n + 3) - 59 / 24 * d (n + 2) + 37 / 24 * d (n + 1) - 9 / 24 * d n) -
      u * exp (-(4 * (z : ℝ))) -
      ((1 - 55 / 24 * z) * (d (n + 3) - u * exp (-(3 * (z : ℝ)))) + 59 / 24 * z * (d (n + 2) - u * exp (-(2 * (z : ℝ)))) -
        37 / 24 * z * (d (n + 1) - u * exp (-(z : ℝ))) + 9 / 24 * z * (d n - u)) =
      -(u * (exp (-(4 * (z : ℝ))) - (exp (-(3 * (z : ℝ))) - z * (55 / 24 * exp (-(3 * (z : ℝ))) -
        59 / 24 * exp (-(2 * (z : ℝ))) + 37 / 24 * exp (-(z : ℝ)) - 9 / 24)))) by ring,
    abs_neg, abs_mul, abs_of_pos p]
  exact (mul_le_of_le_one_left (abs_nonneg _) p1).trans hl

theorem gap_one_le {k : ℕ} (hk : 1 ≤ k) {z : Rat} (h0 : 0 ≤ z) : |gap (abDecay k z) z 1| ≤ (z : ℝ) ^ 2 / 2 := by
  have hz : (0 : ℝ) ≤ z := by exact_mod_cast h0
  rw [gap_one hk, abs_sub_comm]
  exact local1 hz

/-- The second step of a scheme of order 2 or more. -/
theorem gap_second {k : ℕ} (hk : 2 ≤ k) {z : Rat} (h0 : 0 ≤ z) :
    |gap (abDecay k z) z 2 - (1 - 3 / 2 * z) * gap (abDecay k z) z 1| ≤ 4 / 3 * (z : ℝ) ^ 3 := by
  have h := gap_two (abDecay k z) z h0 0 (by
    rw [abDecay_succ, show min k (0 + 1 + 1) = 2 by omega]
    simp [abFormula, abCoef, List.range_succ]
    ring)
  rw [gap_zero, mul_zero, add_zero] at h
  exact h

theorem gap_third {k : ℕ} (hk : 3 ≤ k) {z : Rat} (h0 : 0 ≤ z) :
    |gap (abDecay k z) z 3 - ((1 - 23 / 12 * z) * gap (abDecay k z) z 2 + 16 / 12 * z * gap (abDecay k z) z 1)| ≤
      18 / 5 * (z : ℝ) ^ 4 := by
  have h := gap_three (abDecay k z) z h0 0 (by
    rw [abDecay_succ, show min k (0 + 2 + 1) = 3 by omega]
    simp [abFormula, abCoef, List.range_succ]
    ring)
  rw [gap_zero, mul_zero, sub_zero] at h
  exact h

/-- A bound that grows holds for all steps if it holds for the first ones and each later step
respects it if the earlier ones do. -/
theorem gap_le (e B : ℕ → ℝ) (j : ℕ) (hB : ∀ n, B n ≤ B (n + 1)) (h0 : ∀ m ≤ j, |e m| ≤ B m)
    (h : ∀ n, j ≤ n → (∀ m ≤ n, |e m| ≤ B n) → |e (n + 1)| ≤ B (n + 1)) (n : ℕ) : ∀ m ≤ n, |e m| ≤ B n := by
  induction n with
  | zero =>
    intro m hm
    obtain rfl : m = 0 := by omega
    exact h0 0 (by omega)
  | succ n ih =>
    intro m hm
    by_cases hmn : m ≤ n
    · exact (ih m hmn).trans (hB n)
    · obtain rfl : m = n + 1 := by omega
      by_cases hj : n + 1 ≤ j
      · exact h0 _ hj
      · exact h n (by omega) ih

theorem ab2_gap {z : Rat} (h0 : 0 ≤ z) (h1 : z ≤ 2 / 3) (n : ℕ) :
    |gap (abDecay 2 z) z n| ≤ (z : ℝ) ^ 2 / 2 + n * (4 / 3 * (z : ℝ) ^ 3) := by
  have hz : (0 : ℝ) ≤ z := by exact_mod_cast h0
  have hz1 : (z : ℝ) ≤ 2 / 3 := by
    have : ((z : Rat) : ℝ) ≤ ((2 / 3 : Rat) : ℝ) := by exact_mod_cast h1
    simpa using this
  have p2 := pow_nonneg hz 2
  have p3 := pow_nonneg hz 3
  refine gap_le (gap (abDecay 2 z) z) (fun n => (z : ℝ) ^ 2 / 2 + n * (4 / 3 * (z : ℝ) ^ 3)) 1 ?_ ?_ ?_ n n le_rfl
  · intro n
    push_cast
    linarith
  · intro m hm
    have hm' : m = 0 ∨ m = 1 := by omega
    rcases hm' with rfl | rfl
    · rw [gap_zero, abs_zero]
      positivity
    · have := gap_one_le (k := 2) (by omega) h0
      push_cast
      linarith
  · intro n hn ih
    obtain ⟨n, rfl⟩ : ∃ i, n = i + 1 := ⟨n - 1, by omega⟩
    have a1 := abs_le.1 (ih (n + 1) (by omega))
    have a0 := abs_le.1 (ih n (by omega))
    have hg := abs_le.1 (gap_two (abDecay 2 z) z h0 n (abDecay_two z n))
    set B := (z : ℝ) ^ 2 / 2 + (n + 1 : ℕ) * (4 / 3 * (z : ℝ) ^ 3) with hB
    have hBn : 0 ≤ B := by positivity
    have e : (z : ℝ) ^ 2 / 2 + (n + 1 + 1 : ℕ) * (4 / 3 * (z : ℝ) ^ 3) = B + 4 / 3 * (z : ℝ) ^ 3 := by
      rw [hB]
      push_cast
      ring
    rw [e]
    have c1 : 0 ≤ 1 - 3 / 2 * (z : ℝ) := by linarith
    have u1 := mul_le_mul_of_nonneg_left a1.2 c1
    have l1 := mul_le_mul_of_nonneg_left a1.1 c1
    have u0 := mul_le_mul_of_nonneg_left a0.2 hz
    have l0 := mul_le_mul_of_nonneg_left a0.1 hz
    have zB := mul_nonneg hz hBn
    rw [abs_le]
    constructor <;> linarith

theorem gap_second_le {k : ℕ} (hk : 2 ≤ k) {z : Rat} (h0 : 0 ≤ z) (h1 : (z : ℝ) ≤ 2 / 3) :
    |gap (abDecay k z) z 2| ≤ (z : ℝ) ^ 2 / 2 + 4 / 3 * (z : ℝ) ^ 3 := by
  have hz : (0 : ℝ) ≤ z := by exact_mod_cast h0
  have a1 := abs_le.1 (gap_one_le (k := k) (by omega) h0)
  have hg := abs_le.1 (gap_second hk h0)
  have c1 : 0 ≤ 1 - 3 / 2 * (z : ℝ) := by linarith
  have u1 := mul_le_mul_of_nonneg_left a1.2 c1
  have l1 := mul_le_mul_of_nonneg_left a1.1 c1
  have p3 := pow_nonneg hz 3
  rw [abs_le]
  constructor <;> linarith

theorem gap_third_le {k : ℕ} (hk : 3 ≤ k) {z : Rat} (h0 : 0 ≤ z) (h1 : (z : ℝ) ≤ 12 / 23) :
    |gap (abDecay k z) z 3| ≤ (z : ℝ) ^ 2 / 2 + 4 / 3 * (z : ℝ) ^ 3 + 18 / 5 * (z : ℝ) ^ 4 := by
  have hz : (0 : ℝ) ≤ z := by exact_mod_cast h0
  have p3 := pow_nonneg hz 3
  have p4 := pow_nonneg hz 4
  have a1 := abs_le.1 ((gap_one_le (k := k) (by omega) h0).trans
    (show (z : ℝ) ^ 2 / 2 ≤ (z : ℝ) ^ 2 / 2 + 4 / 3 * (z : ℝ) ^ 3 by linarith))
  have a2 := abs_le.1 (gap_second_le (k := k) (by omega) h0 (by linarith))
  have hg := abs_le.1 (gap_third hk h0)
  have c1 : 0 ≤ 1 - 23 / 12 * (z : ℝ) := by linarith
  set B := (z : ℝ) ^ 2 / 2 + 4 / 3 * (z : ℝ) ^ 3
  have hBn : 0 ≤ B := by positivity
  have u2 := mul_le_mul_of_nonneg_left a2.2 c1
  have l2 := mul_le_mul_of_nonneg_left a2.1 c1
  have u1 := mul_le_mul_of_nonneg_left a1.2 hz
  have l1 := mul_le_mul_of_nonneg_left a1.1 hz
  have zB := mul_nonneg hz hBn
  rw [abs_le]
  constructor <;> linarith

theorem ab3_gap {z : Rat} (h0 : 0 ≤ z) (h1 : (z : ℝ) ≤ 12 / 23) (n : ℕ) : ∀ m ≤ n,
    |gap (abDecay 3 z) z m| ≤ (z : ℝ) ^ 2 / 2 + 4 / 3 * (z : ℝ) ^ 3 + n * (18 / 5 * (z : ℝ) ^ 4) := by
  have hz : (0 : ℝ) ≤ z := by exact_mod_cast h0
  have p2 := pow_nonneg hz 2
  have p3 := pow_nonneg hz 3
  have p4 := pow_nonneg hz 4
  refine gap_le (gap (abDecay 3 z) z) (fun n => (z : ℝ) ^ 2 / 2 + 4 / 3 * (z : ℝ) ^ 3 + n * (18 / 5 * (z : ℝ) ^ 4)) 2
    ?_ ?_ ?_ n
  · intro n
    push_cast
    linarith
  · intro m hm
    have hm' : m = 0 ∨ m = 1 ∨ m = 2 := by omega
    rcases hm' with rfl | rfl | rfl
    · rw [gap_zero, abs_zero]
      positivity
    · have := gap_one_le (k := 3) (by omega) h0
      push_cast
      linarith
    · have := gap_second_le (k := 3) (by omega) h0 (by linarith)
      push_cast
      linarith
  · intro n hn ih
    obtain ⟨n, rfl⟩ : ∃ i, n = i + 2 := ⟨n - 2, by omega⟩
    have a2 := abs_le.1 (ih (n + 2) (by omega))
    have a1 := abs_le.1 (ih (n + 1) (by omega))
    have a0 := abs_le.1 (ih n (by omega))
    have hg := abs_le.1 (gap_three (abDecay 3 z) z h0 n (abDecay_three z n))
    set B := (z : ℝ) ^ 2 / 2 + 4 / 3 * (z : ℝ) ^ 3 + (n + 2 : ℕ) * (18 / 5 * (z : ℝ) ^ 4) with hB
    have hBn : 0 ≤ B := by positivity
    have e : (z : ℝ) ^ 2 / 2 + 4 / 3 * (z : ℝ) ^ 3 + (n + 2 + 1 : ℕ) * (18 / 5 * (z : ℝ) ^ 4) =
        B + 18 / 5 * (z : ℝ) ^ 4 := by
      rw [hB]
      push_cast
      ring
    rw [e]
    have c1 : 0 ≤ 1 - 23 / 12 * (z : ℝ) := by linarith
    have u2 := mul_le_mul_of_nonneg_left a2.2 c1
    have l2 := mul_le_mul_of_nonneg_left a2.1 c1
    have u1 := mul_le_mul_of_nonneg_left a1.2 hz
    have l1 := mul_le_mul_of_nonneg_left a1.1 hz
    have u0 := mul_le_mul_of_nonneg_left a0.2 hz
    have l0 := mul_le_mul_of_nonneg_left a0.1 hz
    have zB := mul_nonneg hz hBn
    rw [abs_le]
    constructor <;> linarith

theorem ab4_gap {z : Rat} (h0 : 0 ≤ z) (h1 : (z : ℝ) ≤ 24 / 55) (n : ℕ) : ∀ m ≤ n,
    |gap (abDecay 4 z) z m| ≤ (1 + 25 / 12 * (z : ℝ)) ^ n *
      ((z : ℝ) ^ 2 / 2 + 4 / 3 * (z : ℝ) ^ 3 + 18 / 5 * (z : ℝ) ^ 4 + n * (51 / 5 * (z : ℝ) ^ 5)) := by
  have hz : (0 : ℝ) ≤ z := by exact_mod_cast h0
  have p2 := pow_nonneg hz 2
  have p3 := pow_nonneg hz 3
  have p4 := pow_nonneg hz 4
  have p5 := pow_nonneg hz 5
  have hG : 1 ≤ 1 + 25 / 12 * (z : ℝ) := by linarith
  have hGn : ∀ n : ℕ, 1 ≤ (1 + 25 / 12 * (z : ℝ)) ^ n := fun n => one_le_pow₀ hG
  refine gap_le (gap (abDecay 4 z) z) (fun n => (1 + 25 / 12 * (z : ℝ)) ^ n *
    ((z : ℝ) ^ 2 / 2 + 4 / 3 * (z : ℝ) ^ 3 + 18 / 5 * (z : ℝ) ^ 4 + n * (51 / 5 * (z : ℝ) ^ 5))) 3 ?_ ?_ ?_ n
  · intro n
    refine mul_le_mul (pow_le_pow_right₀ hG (by omega)) ?_ (by positivity) (by positivity)
    push_cast
    linarith
  · intro m hm
    refine le_trans ?_ (le_mul_of_one_le_left (by positivity) (hGn m))
    have hm' : m = 0 ∨ m = 1 ∨ m = 2 ∨ m = 3 := by omega
    rcases hm' with rfl | rfl | rfl | rfl
    · rw [gap_zero, abs_zero]
      positivity
    · have := gap_one_le (k := 4) (by omega) h0
      push_cast
      linarith
    · have := gap_second_le (k := 4) (by omega) h0 (by linarith)
      push_cast
      linarith
    · have := gap_third_le (k := 4) (by omega) h0 (by linarith)
      push_cast
      linarith
  · intro n hn ih
    obtain ⟨n, rfl⟩ : ∃ i, n = i + 3 := ⟨n - 3, by omega⟩
    have a3 := abs_le.1 (ih (n + 3) (by omega))
    have a2 := abs_le.1 (ih (n + 2) (by omega))
    have a1 := abs_le.1 (ih (n + 1) (by omega))
    have a0 := abs_le.1 (ih n (by omega))
    have hg := abs_le.1 (gap_four (abDecay 4 z) z h0 n (abDecay_four z n))
    set S := (z : ℝ) ^ 2 / 2 + 4 / 3 * (z : ℝ) ^ 3 + 18 / 5 * (z : ℝ) ^ 4 + (n + 3 : ℕ) * (51 / 5 * (z : ℝ) ^ 5) with hS
    have e : (z : ℝ) ^ 2 / 2 + 4 / 3 * (z : ℝ) ^ 3 + 18 / 5 * (z : ℝ) ^ 4 + (n + 3 + 1 : ℕ) * (51 / 5 * (z : ℝ) ^ 5) =
        S + 51 / 5 * (z : ℝ) ^ 5 := by
      rw [hS]
      push_cast
      ring
    have hg1 := le_mul_of_one_le_left (show 0 ≤ 51 / 5 * (z : ℝ) ^ 5 by positivity) (hGn (n + 3 + 1))
    rw [e, mul_add, pow_succ (1 + 25 / 12 * (z : ℝ)) (n + 3), mul_right_comm]
    rw [pow_succ (1 + 25 / 12 * (z : ℝ)) (n + 3)] at hg1
    set B := (1 + 25 / 12 * (z : ℝ)) ^ (n + 3) * S with hB
    have hBn : 0 ≤ B := by positivity
    have c1 : 0 ≤ 1 - 55 / 24 * (z : ℝ) := by linarith
    have u3 := mul_le_mul_of_nonneg_left a3.2 c1
    have l3 := mul_le_mul_of_nonneg_left a3.1 c1
    have u2 := mul_le_mul_of_nonneg_left a2.2 hz
    have l2 := mul_le_mul_of_nonneg_left a2.1 hz
    have u1 := mul_le_mul_of_nonneg_left a1.2 hz
    have l1 := mul_le_mul_of_nonneg_left a1.1 hz
    have u0 := mul_le_mul_of_nonneg_left a0.2 hz
    have l0 := mul_le_mul_of_nonneg_left a0.1 hz
    rw [abs_le]
    constructor <;> linarith

/-- Leapfrog without filter. -/
theorem lf_gap {z : Rat} (h0 : 0 ≤ z) (α : Rat) (n : ℕ) : ∀ m ≤ n,
    |gap (lfDecay 0 α z) z m| ≤ (1 + 2 * (z : ℝ)) ^ n * ((z : ℝ) ^ 2 / 2 + n * (4 / 3 * (z : ℝ) ^ 3)) := by
  have hz : (0 : ℝ) ≤ z := by exact_mod_cast h0
  have p2 := pow_nonneg hz 2
  have p3 := pow_nonneg hz 3
  have hG : 1 ≤ 1 + 2 * (z : ℝ) := by linarith
  have hGn : ∀ n : ℕ, 1 ≤ (1 + 2 * (z : ℝ)) ^ n := fun n => one_le_pow₀ hG
  have hpair : ∀ n, (lfPair 0 α z n).1 = lfDecay 0 α z n := by
    intro n
    cases n with
    | zero => rfl
    | succ n => simp [lfPair, lfDecay, filterDisplacement]
  have hrec : ∀ n, lfDecay 0 α z (n + 2) = lfDecay 0 α z n - 2 * z * lfDecay 0 α z (n + 1) := by
    intro n
    have := hpair n
    simp [lfPair, lfDecay, filterDisplacement, this]
  refine gap_le (gap (lfDecay 0 α z) z) (fun n => (1 + 2 * (z : ℝ)) ^ n * ((z : ℝ) ^ 2 / 2 + n * (4 / 3 * (z : ℝ) ^ 3))) 1
    ?_ ?_ ?_ n
  · intro n
    refine mul_le_mul (pow_le_pow_right₀ hG (by omega)) ?_ (by positivity) (by positivity)
    push_cast
    linarith
  · intro m hm
    refine le_trans ?_ (le_mul_of_one_le_left (by positivity) (hGn m))
    have hm' : m = 0 ∨ m = 1 := by omega
    rcases hm' with rfl | rfl
    · have : gap (lfDecay 0 α z) z 0 = 0 := by simp [gap, lfDecay]
      rw [this, abs_zero]
      positivity
    · have : gap (lfDecay 0 α z) z 1 = 1 - (z : ℝ) - exp (-(z : ℝ)) := by simp [gap, lfDecay, lfPair]
      rw [this, abs_sub_comm]
      have := local1 hz
      push_cast
      linarith
  · intro n hn ih
    obtain ⟨n, rfl⟩ : ∃ i, n = i + 1 := ⟨n - 1, by omega⟩
    have a1 := abs_le.1 (ih (n + 1) (by omega))
    have a0 := abs_le.1 (ih n (by omega))
    have hg : |gap (lfDecay 0 α z) z (n + 2) - (gap (lfDecay 0 α z) z n - 2 * z * gap (lfDecay 0 α z) z (n + 1))| ≤
        4 / 3 * (z : ℝ) ^ 3 := by
      unfold gap
      rw [hrec, exp_steps _ n 2, exp_steps _ n 1]
      obtain ⟨p, p1⟩ := exp_decay_le hz n
      push_cast
      rw [one_mul]
      set u := exp (-(n * (z : ℝ)))
      rw [show (lfDecay 0 α z n : ℝ) - 2 * z * lfDecay 0 α z (n + 1) - u * exp (-(2 * (z : ℝ))) -
          (lfDecay 0 α z n - u - 2 * z * (lfDecay 0 α z (n + 1) - u * exp (-(z : ℝ)))) =
          -(u * (exp (-(2 * (z : ℝ))) - (1 - 2 * z * exp (-(z : ℝ))))) by ring, abs_neg, abs_mul, abs_of_pos p]
      exact (mul_le_of_le_one_left (abs_nonneg _) p1).trans (localLF hz)
    have hg := abs_le.1 hg
    set S := (z : ℝ) ^ 2 / 2 + (n + 1 : ℕ) * (4 / 3 * (z : ℝ) ^ 3) with hS
    have e : (z : ℝ) ^ 2 / 2 + (n + 1 + 1 : ℕ) * (4 / 3 * (z : ℝ) ^ 3) = S + 4 / 3 * (z : ℝ) ^ 3 := by
      rw [hS]
      push_cast
      ring
    have hg1 := le_mul_of_one_le_left (show 0 ≤ 4 / 3 * (z : ℝ) ^ 3 by positivity) (hGn (n + 1 + 1))
    rw [e, mul_add, pow_succ (1 + 2 * (z : ℝ)) (n + 1), mul_right_comm]
    rw [pow_succ (1 + 2 * (z : ℝ)) (n + 1)] at hg1
    set B := (1 + 2 * (z : ℝ)) ^ (n + 1) * S with hB
    have hBn : 0 ≤ B := by positivity
    have u1 := mul_le_mul_of_nonneg_left a1.2 hz
    have l1 := mul_le_mul_of_nonneg_left a1.1 hz
    rw [abs_le]
    constructor <;> linarith

/-- The errors of the filtered previous value and of the current value in Leapfrog. -/
noncomputable def lfErrors (ν α z : Rat) (n : ℕ) : ℝ × ℝ :=
  (((lfPair ν α z n).1 : ℝ) - exp (-(n * (z : ℝ))), ((lfPair ν α z n).2 : ℝ) - exp (-((n + 1 : ℕ) * (z : ℝ))))

theorem lfErrors_step {z : Rat} (h0 : 0 ≤ z) (ν α : Rat) (n : ℕ) : ∃ τ δ : ℝ, |τ| ≤ 4 / 3 * (z : ℝ) ^ 3 ∧ 0 ≤ δ ∧
    δ ≤ (z : ℝ) ^ 2 ∧
    (lfErrors ν α z (n + 1)).1 = (lfErrors ν α z n).2 + α * (ν / 2 * (2 * (lfErrors ν α z n).1 - 2 * (lfErrors ν α z n).2 -
      2 * z * (lfErrors ν α z n).2 + τ + δ)) ∧
    (lfErrors ν α z (n + 1)).2 = (lfErrors ν α z n).1 - 2 * z * (lfErrors ν α z n).2 + τ -
      (1 - α) * (ν / 2 * (2 * (lfErrors ν α z n).1 - 2 * (lfErrors ν α z n).2 - 2 * z * (lfErrors ν α z n).2 + τ + δ)) := by
  have hz0 : (0 : ℝ) ≤ z := by exact_mod_cast h0
  obtain ⟨u0, u1⟩ := exp_decay_le hz0 n
  have hτ : ∃ τ : ℝ, |τ| ≤ 4 / 3 * (z : ℝ) ^ 3 ∧ exp (-(n * (z : ℝ))) - 2 * z * exp (-((n + 1 : ℕ) * (z : ℝ))) =
      exp (-((n + 2 : ℕ) * (z : ℝ))) + τ := by
    refine ⟨_, ?_, (add_sub_cancel _ _).symm⟩
    rw [exp_steps _ n 2, exp_steps _ n 1]
    push_cast
    rw [one_mul]
    set u := exp (-(n * (z : ℝ)))
    rw [show u - 2 * z * (u * exp (-(z : ℝ))) - u * exp (-(2 * (z : ℝ))) =
      -(u * (exp (-(2 * (z : ℝ))) - (1 - 2 * z * exp (-(z : ℝ))))) by ring, abs_neg, abs_mul, abs_of_pos u0]
    exact (mul_le_of_le_one_left (abs_nonneg _) u1).trans (localLF hz0)
  have hδ : ∃ δ : ℝ, 0 ≤ δ ∧ δ ≤ (z : ℝ) ^ 2 ∧
      δ = exp (-(n * (z : ℝ))) - 2 * exp (-((n + 1 : ℕ) * (z : ℝ))) + exp (-((n + 2 : ℕ) * (z : ℝ))) := by
    refine ⟨_, ?_, ?_, rfl⟩ <;> rw [exp_steps _ n 2, exp_steps _ n 1] <;> push_cast <;> rw [one_mul]
    all_goals
      have e : exp (-(2 * (z : ℝ))) = exp (-(z : ℝ)) ^ 2 := by
        rw [← exp_mul_nat]
        norm_num
      rw [e]
      set u := exp (-(n * (z : ℝ)))
      rw [show u - 2 * (u * exp (-(z : ℝ))) + u * exp (-(z : ℝ)) ^ 2 = u * (1 - exp (-(z : ℝ))) ^ 2 by ring]
    · positivity
    · have h1 := taylor1 hz0
      have h2 := taylor2 hz0
      have h3 : (1 - exp (-(z : ℝ))) ^ 2 ≤ (z : ℝ) ^ 2 := pow_le_pow_left₀ h1 (by linarith) 2
      exact (mul_le_of_le_one_left (by positivity) u1).trans h3
  obtain ⟨τ, hτ1, hτ2⟩ := hτ
  obtain ⟨δ, hδ0, hδ1, hδ2⟩ := hδ
  refine ⟨τ, δ, hτ1, hδ0, hδ1, ?_, ?_⟩
  · simp only [lfErrors, lfPair, filterDisplacement]
    push_cast at hτ2 hδ2 ⊢
    rw [hδ2]
    linear_combination (α * ν / 2 : ℝ) * hτ2
  · simp only [lfErrors, lfPair, filterDisplacement]
    push_cast at hτ2 hδ2 ⊢
    rw [hδ2]
    rw [show ((n : ℝ) + 1 + 1) = n + 2 by ring]
    linear_combination (1 - (1 - α) * ν / 2 : ℝ) * hτ2

/-- With `a` and `b` the errors of the filtered previous and of the current value, the filter
damps `a - b`, and leaves `(1 - (1 - α) ν) a + (1 - α ν) b` alone if `α` is 1/2. -/
theorem filter_step {z ν α κ l a b a' b' τ δ B f : ℝ} (hz0 : 0 ≤ z) (hν0 : 0 < ν) (hν : ν ≤ 1) (hα : α ≤ 1)
    (hz : 4 * z ≤ ν) (hκ : κ = 1 - (1 - α) * ν) (hl : l = 1 - α * ν) (hκ0 : 0 ≤ κ) (hl0 : 0 ≤ l)
    (hf : f = 7 / 3 * z ^ 3 + |2 * α - 1| * ν / 2 * z ^ 2) (hB0 : 0 ≤ B)
    (ih1 : |κ * a + l * b| ≤ (2 - ν) * B) (ih2 : |a - b| ≤ 5 / 3 * z ^ 2 + 4 * z / ν * B)
    (hτ1 : |τ| ≤ 4 / 3 * z ^ 3) (hδ0 : 0 ≤ δ) (hδ1 : δ ≤ z ^ 2)
    (ea : a' = b + α * (ν / 2 * (2 * a - 2 * b - 2 * z * b + τ + δ)))
    (eb : b' = a - 2 * z * b + τ - (1 - α) * (ν / 2 * (2 * a - 2 * b - 2 * z * b + τ + δ))) :
    |κ * a' + l * b'| ≤ (2 - ν) * (B + f) ∧ |a' - b'| ≤ 5 / 3 * z ^ 2 + 4 * z / ν * (B + f) := by
  have p2 := pow_nonneg hz0 2
  have p3 := pow_nonneg hz0 3
  have hγ : κ + l = 2 - ν := by rw [hκ, hl]; ring
  have hf0 : 0 ≤ f := by rw [hf]; positivity
  have ep : κ * a' + l * b' = (κ * a + l * b) - (2 - ν) * z * b + (2 - ν) / 2 * τ + (2 * α - 1) * ν / 2 * δ := by
    rw [ea, eb, hκ, hl]
    ring
  have es : a' - b' = -(1 - ν) * (a - b) + (2 - ν) * z * b - (2 - ν) / 2 * τ + ν / 2 * δ := by
    rw [ea, eb]
    ring
  have ebb : (2 - ν) * b = (κ * a + l * b) - κ * (a - b) := by
    rw [← hγ]
    ring
  clear ea eb
  set P := κ * a + l * b
  set t := a - b
  set w := 4 * z / ν * B with hw
  have hw0 : 0 ≤ w := by positivity
  have hνw : ν * w = 4 * z * B := by
    rw [hw]
    field_simp
  have hwB : w ≤ B := by
    have : 4 * z / ν ≤ 1 := by rw [div_le_one hν0]; exact hz
    exact mul_le_of_le_one_left hB0 this
  have hzw : z * w ≤ z * B := mul_le_mul_of_nonneg_left hwB hz0
  have hzw' : 4 * z * w ≤ ν * w := mul_le_mul_of_nonneg_right hz hw0
  have hwf : 4 * z / ν * (B + f) = w + 4 * z / ν * f := by rw [hw]; ring
  have hf' : 0 ≤ 4 * z / ν * f := by positivity
  have e1 : (2 - ν) * z * b = z * P - κ * (z * t) := by
    rw [show (2 - ν) * z * b = z * ((2 - ν) * b) by ring, ebb]
    ring
  have hzP := mul_le_mul_of_nonneg_left ih1 hz0
  have hPl : |(1 - z) * P| ≤ (1 - z) * ((2 - ν) * B) := by
    rw [abs_mul, abs_of_nonneg (by linarith)]
    exact mul_le_mul_of_nonneg_left ih1 (by linarith)
  have hzt : |z * t| ≤ z * (5 / 3 * z ^ 2 + w) := by
    rw [abs_mul, abs_of_nonneg hz0]
    exact mul_le_mul_of_nonneg_left ih2 hz0
  have hzt0 : 0 ≤ z * (5 / 3 * z ^ 2 + w) := by positivity
  have hκγ : κ ≤ 2 - ν := by linarith
  have hκ1 : κ ≤ 1 := by
    rw [hκ]
    nlinarith
  have hκt : |κ * (z * t)| ≤ (2 - ν) * (z * (5 / 3 * z ^ 2 + w)) := by
    rw [abs_mul, abs_of_nonneg hκ0]
    exact mul_le_mul hκγ hzt (abs_nonneg _) (by linarith)
  have hκt1 : |κ * (z * t)| ≤ z * (5 / 3 * z ^ 2 + w) := by
    rw [abs_mul, abs_of_nonneg hκ0]
    exact (mul_le_of_le_one_left (abs_nonneg _) hκ1).trans hzt
  have hgτ : |(2 - ν) / 2 * τ| ≤ (2 - ν) / 2 * (4 / 3 * z ^ 3) := by
    rw [abs_mul, abs_of_nonneg (by linarith)]
    exact mul_le_mul_of_nonneg_left hτ1 (by linarith)
  have hβδ : |(2 * α - 1) * ν / 2 * δ| ≤ |2 * α - 1| * ν / 2 * z ^ 2 := by
    rw [abs_mul, abs_div, abs_mul, abs_of_pos hν0, abs_of_nonneg hδ0, abs_of_pos (show (0 : ℝ) < 2 by norm_num)]
    exact mul_le_mul_of_nonneg_left hδ1 (by positivity)
  have hβ0 : 0 ≤ |2 * α - 1| * ν / 2 * z ^ 2 := by positivity
  constructor
  · rw [ep, e1]
    have hg1 : |2 * α - 1| * ν / 2 * z ^ 2 ≤ (2 - ν) * (|2 * α - 1| * ν / 2 * z ^ 2) :=
      le_mul_of_one_le_left hβ0 (by linarith)
    have hg2 : (2 - ν) * (z * w) ≤ (2 - ν) * (z * B) := mul_le_mul_of_nonneg_left hzw (by linarith)
    have e2 : (2 - ν) * (B + f) = (2 - ν) * B + (2 - ν) * (7 / 3 * z ^ 3) +
        (2 - ν) * (|2 * α - 1| * ν / 2 * z ^ 2) := by rw [hf]; ring
    rw [e2]
    have a1 := abs_le.1 hPl
    have a2 := abs_le.1 hκt
    have a3 := abs_le.1 hgτ
    have a4 := abs_le.1 hβδ
    rw [abs_le]
    constructor <;> linarith
  · rw [es, e1, hwf]
    have b1 : |(1 - ν) * t| ≤ (1 - ν) * (5 / 3 * z ^ 2 + w) := by
      rw [abs_mul, abs_of_nonneg (by linarith)]
      exact mul_le_mul_of_nonneg_left ih2 (by linarith)
    have b2 : |z * P| ≤ 2 * (z * B) := by
      rw [abs_mul, abs_of_nonneg hz0]
      have := mul_nonneg hν0.le (mul_nonneg hz0 hB0)
      linarith
    have b3 : ν / 2 * δ ≤ ν / 2 * z ^ 2 := mul_le_mul_of_nonneg_left hδ1 (by linarith)
    have b4 : 0 ≤ ν / 2 * δ := by positivity
    have b5 : 4 * z ^ 3 ≤ ν * z ^ 2 := by
      rw [show 4 * z ^ 3 = 4 * z * z ^ 2 by ring]
      exact mul_le_mul_of_nonneg_right hz p2
    have b6 : 0 ≤ ν * z ^ 3 := by positivity
    have a1 := abs_le.1 b1
    have a2 := abs_le.1 b2
    have a3 := abs_le.1 hgτ
    have a4 := abs_le.1 hκt1
    rw [abs_le]
    constructor <;> linarith

theorem lf_filtered_gap {z ν α : Rat} (h0 : 0 ≤ z) (hν : ν ≤ 1) (hα0 : 0 ≤ α) (hα : α ≤ 1) (hz : 4 * z ≤ ν) (hν0 : 0 < ν)
    (n : ℕ) : |gap (lfDecay ν α z) z n| ≤ 2 * ((z : ℝ) ^ 2 / 2 + n * (7 / 3 * (z : ℝ) ^ 3 + |2 * (α : ℝ) - 1| * ν / 2 * (z : ℝ) ^ 2)) +
      5 / 3 * (z : ℝ) ^ 2 := by
  have hz0 : (0 : ℝ) ≤ z := by exact_mod_cast h0
  have hν0 : (0 : ℝ) < ν := by exact_mod_cast hν0
  have hν : (ν : ℝ) ≤ 1 := by exact_mod_cast hν
  have hα0 : (0 : ℝ) ≤ α := by exact_mod_cast hα0
  have hα : (α : ℝ) ≤ 1 := by exact_mod_cast hα
  have hz : 4 * (z : ℝ) ≤ ν := by exact_mod_cast hz
  have p2 := pow_nonneg hz0 2
  set f : ℝ := 7 / 3 * (z : ℝ) ^ 3 + |2 * (α : ℝ) - 1| * ν / 2 * (z : ℝ) ^ 2 with hf
  have hf0 : 0 ≤ f := by positivity
  obtain ⟨κ, hκ⟩ : ∃ κ : ℝ, κ = 1 - (1 - α) * ν := ⟨_, rfl⟩
  obtain ⟨l, hl⟩ : ∃ l : ℝ, l = 1 - α * ν := ⟨_, rfl⟩
  have hαν : (α : ℝ) * ν ≤ ν := mul_le_of_le_one_left hν0.le hα
  have hαν0 : 0 ≤ (α : ℝ) * ν := by positivity
  have hκ0 : 0 ≤ κ := by rw [hκ]; linarith
  have hl0 : 0 ≤ l := by rw [hl]; linarith
  have hγ : κ + l = 2 - ν := by rw [hκ, hl]; ring
  have key : ∀ n : ℕ, |κ * (lfErrors ν α z n).1 + l * (lfErrors ν α z n).2| ≤ (2 - ν) * ((z : ℝ) ^ 2 / 2 + n * f) ∧
      |(lfErrors ν α z n).1 - (lfErrors ν α z n).2| ≤ 5 / 3 * (z : ℝ) ^ 2 + 4 * z / ν * ((z : ℝ) ^ 2 / 2 + n * f) := by
    intro n
    induction n with
    | zero =>
      have ha : (lfErrors ν α z 0).1 = 0 := by simp [lfErrors, lfPair]
      have hb : (lfErrors ν α z 0).2 = 1 - (z : ℝ) - exp (-(z : ℝ)) := by simp [lfErrors, lfPair]
      have hb1 : |(lfErrors ν α z 0).2| ≤ (z : ℝ) ^ 2 / 2 := by
        rw [hb, abs_sub_comm]
        exact local1 hz0
      have hq : 0 ≤ 4 * (z : ℝ) / ν * ((z : ℝ) ^ 2 / 2 + (0 : ℕ) * f) := by positivity
      rw [ha]
      constructor
      · rw [mul_zero, zero_add, abs_mul, abs_of_nonneg hl0]
        have h1 := mul_le_mul_of_nonneg_left hb1 hl0
        have h2 := mul_nonneg hκ0 (show 0 ≤ (z : ℝ) ^ 2 / 2 by positivity)
        rw [← hγ]
        push_cast
        linarith
      · rw [zero_sub, abs_neg]
        linarith
    | succ n ih =>
      obtain ⟨τ, δ, hτ1, hδ0, hδ1, ea, eb⟩ := lfErrors_step h0 ν α n
      have hB1 : (z : ℝ) ^ 2 / 2 + (n + 1 : ℕ) * f = (z : ℝ) ^ 2 / 2 + n * f + f := by push_cast; ring
      rw [hB1]
      exact filter_step hz0 hν0 hν hα hz hκ hl hκ0 hl0 hf (by positivity) ih.1 ih.2 hτ1 hδ0 hδ1 ea eb
  cases n with
  | zero =>
    have : gap (lfDecay ν α z) z 0 = 0 := by simp [gap, lfDecay]
    rw [this, abs_zero]
    positivity
  | succ n =>
    obtain ⟨k1, k2⟩ := key n
    have e : gap (lfDecay ν α z) z (n + 1) = (lfErrors ν α z n).2 := rfl
    rw [e]
    set B := (z : ℝ) ^ 2 / 2 + n * f with hB
    have hB0 : 0 ≤ B := by positivity
    have hwB : 4 * (z : ℝ) / ν * B ≤ B := by
      have : 4 * (z : ℝ) / ν ≤ 1 := by rw [div_le_one hν0]; exact hz
      exact mul_le_of_le_one_left hB0 this
    have hg : (0 : ℝ) < 2 - ν := by linarith
    have h1 : |(2 - ν) * (lfErrors ν α z n).2| ≤ (2 - ν) * (2 * B + 5 / 3 * (z : ℝ) ^ 2) := by
      have h2 : |κ * ((lfErrors ν α z n).1 - (lfErrors ν α z n).2)| ≤ (2 - ν) * (5 / 3 * (z : ℝ) ^ 2 + B) := by
        rw [abs_mul, abs_of_nonneg hκ0]
        exact mul_le_mul (by linarith) (by linarith) (abs_nonneg _) hg.le
      rw [show (2 - ν) * (lfErrors ν α z n).2 = (κ * (lfErrors ν α z n).1 + l * (lfErrors ν α z n).2) - κ * ((lfErrors ν α z n).1 - (lfErrors ν α z n).2) by rw [← hγ]; ring]
      have a1 := abs_le.1 k1
      have a2 := abs_le.1 h2
      rw [abs_le]
      constructor <;> linarith
    rw [abs_mul, abs_of_pos hg] at h1
    have h3 := le_of_mul_le_mul_left h1 hg
    push_cast
    linarith

/-! ## The first steps are of lower order -/

theorem gap_one_upper {k : ℕ} (hk : 1 ≤ k) {z : Rat} (h0 : 0 ≤ z) :
    gap (abDecay k z) z 1 ≤ -((z : ℝ) ^ 2 / 2) + (z : ℝ) ^ 3 / 6 := by
  have hz : (0 : ℝ) ≤ z := by exact_mod_cast h0
  rw [gap_one hk]
  linarith [taylor4 hz]

theorem gap_second_upper {k : ℕ} (hk : 2 ≤ k) {z : Rat} (h0 : 0 ≤ z) :
    gap (abDecay k z) z 2 ≤ -((z : ℝ) ^ 2 / 2) + 9 / 4 * (z : ℝ) ^ 3 := by
  have hz : (0 : ℝ) ≤ z := by exact_mod_cast h0
  have h1 := gap_one_upper (k := k) (by omega) h0
  have h2 := mul_le_mul_of_nonneg_left (abs_le.1 (gap_one_le (k := k) (by omega) h0)).1 hz
  have h3 := (abs_le.1 (gap_second hk h0)).2
  nlinarith

/-- The order 3 scheme within the first fortieth of the timescale: the error of the first step
remains. -/
theorem ab3_gap_ge {z : Rat} (h0 : 0 < z) {n : ℕ} (h1 : 1 ≤ n) (h2 : (n : ℝ) * z ≤ 1 / 40) :
    gap (abDecay 3 z) z n ≤ -((z : ℝ) ^ 2 / 4) := by
  have hz : (0 : ℝ) < z := by exact_mod_cast h0
  have hn1 : (1 : ℝ) ≤ n := by exact_mod_cast h1
  have hz1 : (z : ℝ) ≤ 1 / 40 := by nlinarith
  have p2 := pow_nonneg hz.le 2
  have p3 := pow_nonneg hz.le 3
  have p4 := pow_nonneg hz.le 4
  have hM := ab3_gap h0.le (by linarith) n
  set M := (z : ℝ) ^ 2 / 2 + 4 / 3 * (z : ℝ) ^ 3 + n * (18 / 5 * (z : ℝ) ^ 4) with hMd
  have hM0 : 0 ≤ M := by positivity
  have key : ∀ m : ℕ, 1 ≤ m → m ≤ n → gap (abDecay 3 z) z m ≤
      -((z : ℝ) ^ 2 / 2) + 9 / 4 * (z : ℝ) ^ 3 + m * (11 / 3 * z * M + 18 / 5 * (z : ℝ) ^ 4) := by
    intro m
    induction m with
    | zero => intro h; omega
    | succ m ih =>
      intro _ hmn
      have hpos : 0 ≤ ((m + 1 : ℕ) : ℝ) * (11 / 3 * z * M + 18 / 5 * (z : ℝ) ^ 4) := by positivity
      match m, ih, hmn, hpos with
      | 0, _, _, hpos => linarith [gap_one_upper (k := 3) (by omega) h0.le]
      | 1, _, _, hpos => linarith [gap_second_upper (k := 3) (by omega) h0.le]
      | m + 2, ih, hmn, _ =>
        have h := ih (by omega) (by omega)
        have hg := (abs_le.1 (gap_three (abDecay 3 z) z h0.le m (abDecay_three z m))).2
        have l2 := mul_le_mul_of_nonneg_left (abs_le.1 (hM (m + 2) (by omega))).1 hz.le
        have u1 := mul_le_mul_of_nonneg_left (abs_le.1 (hM (m + 1) (by omega))).2 hz.le
        have l0 := mul_le_mul_of_nonneg_left (abs_le.1 (hM m (by omega))).1 hz.le
        push_cast at h ⊢
        linarith
  have h := key n h1 le_rfl
  have e1 : (n : ℝ) * (11 / 3 * z * M + 18 / 5 * (z : ℝ) ^ 4) ≤ 11 / 120 * M + 9 / 100 * (z : ℝ) ^ 3 := by
    have a := mul_le_mul_of_nonneg_right h2 hM0
    have b := mul_le_mul_of_nonneg_right h2 p3
    nlinarith
  have e2 : M ≤ (z : ℝ) ^ 2 / 2 + 143 / 100 * (z : ℝ) ^ 3 := by
    have b := mul_le_mul_of_nonneg_right h2 p3
    rw [hMd]
    nlinarith
  have e3 : (z : ℝ) ^ 3 ≤ 1 / 40 * (z : ℝ) ^ 2 := by
    rw [show (z : ℝ) ^ 3 = z * (z : ℝ) ^ 2 by ring]
    exact mul_le_mul_of_nonneg_right hz1 p2
  linarith

/-- The same for the order 4 scheme. -/
theorem ab4_gap_ge {z : Rat} (h0 : 0 < z) {n : ℕ} (h1 : 1 ≤ n) (h2 : (n : ℝ) * z ≤ 1 / 40) :
    gap (abDecay 4 z) z n ≤ -((z : ℝ) ^ 2 / 4) := by
  have hz : (0 : ℝ) < z := by exact_mod_cast h0
  have hn1 : (1 : ℝ) ≤ n := by exact_mod_cast h1
  have hz1 : (z : ℝ) ≤ 1 / 40 := by nlinarith
  have p2 := pow_nonneg hz.le 2
  have p3 := pow_nonneg hz.le 3
  have p4 := pow_nonneg hz.le 4
  have p5 := pow_nonneg hz.le 5
  have hG : (1 + 25 / 12 * (z : ℝ)) ^ n ≤ 11 / 10 := by
    have a : (1 + 25 / 12 * (z : ℝ)) ^ n ≤ exp (25 / 12 * z) ^ n :=
      pow_le_pow_left₀ (by positivity) (by linarith [Real.add_one_le_exp (25 / 12 * (z : ℝ))]) n
    rw [← Real.exp_nat_mul] at a
    have b : exp ((n : ℝ) * (25 / 12 * z)) ≤ exp (1 / 16) := Real.exp_le_exp.2 (by linarith)
    have c : exp (1 / 16 : ℝ) ≤ 11 / 10 := by
      have d := taylor2 (x := 1 / 16) (by norm_num)
      have e : exp (1 / 16 : ℝ) * exp (-(1 / 16)) = 1 := by rw [← Real.exp_add]; norm_num
      have f := Real.exp_pos (1 / 16)
      nlinarith
    linarith
  have hM := ab4_gap h0.le (by linarith) n
  set S := (z : ℝ) ^ 2 / 2 + 4 / 3 * (z : ℝ) ^ 3 + 18 / 5 * (z : ℝ) ^ 4 + n * (51 / 5 * (z : ℝ) ^ 5) with hSd
  have hS0 : 0 ≤ S := by positivity
  have hM : ∀ m ≤ n, |gap (abDecay 4 z) z m| ≤ 11 / 10 * S := fun m hm =>
    (hM m hm).trans (mul_le_mul_of_nonneg_right hG hS0)
  set M := 11 / 10 * S with hMd
  have hM0 : 0 ≤ M := by positivity
  have key : ∀ m : ℕ, 1 ≤ m → m ≤ n → gap (abDecay 4 z) z m ≤
      -((z : ℝ) ^ 2 / 2) + 9 / 4 * (z : ℝ) ^ 3 + (13 / 4 * z * M + 18 / 5 * (z : ℝ) ^ 4) +
        m * (20 / 3 * z * M + 51 / 5 * (z : ℝ) ^ 5) := by
    have hc : 0 ≤ 13 / 4 * z * M + 18 / 5 * (z : ℝ) ^ 4 := by positivity
    intro m
    induction m with
    | zero => intro h; omega
    | succ m ih =>
      intro _ hmn
      have hpos : 0 ≤ ((m + 1 : ℕ) : ℝ) * (20 / 3 * z * M + 51 / 5 * (z : ℝ) ^ 5) := by positivity
      match m, ih, hmn, hpos with
      | 0, _, _, hpos => linarith [gap_one_upper (k := 4) (by omega) h0.le]
      | 1, _, _, hpos => linarith [gap_second_upper (k := 4) (by omega) h0.le]
      | 2, _, hmn, hpos =>
        have h := gap_second_upper (k := 4) (by omega) h0.le
        have hg := (abs_le.1 (gap_third (k := 4) (by omega) h0.le)).2
        have l2 := mul_le_mul_of_nonneg_left (abs_le.1 (hM 2 (by omega))).1 hz.le
        have u1 := mul_le_mul_of_nonneg_left (abs_le.1 (hM 1 (by omega))).2 hz.le
        linarith
      | m + 3, ih, hmn, _ =>
        have h := ih (by omega) (by omega)
        have hg := (abs_le.1 (gap_four (abDecay 4 z) z h0.le m (abDecay_four z m))).2
        have l3 := mul_le_mul_of_nonneg_left (abs_le.1 (hM (m + 3) (by omega))).1 hz.le
        have u2 := mul_le_mul_of_nonneg_left (abs_le.1 (hM (m + 2) (by omega))).2 hz.le
        have l1 := mul_le_mul_of_nonneg_left (abs_le.1 (hM (m + 1) (by omega))).1 hz.le
        have u0 := mul_le_mul_of_nonneg_left (abs_le.1 (hM m (by omega))).2 hz.le
        push_cast at h ⊢
        linarith
  have h := key n h1 le_rfl
  have e3 : (z : ℝ) ^ 3 ≤ 1 / 40 * (z : ℝ) ^ 2 := by
    rw [show (z : ℝ) ^ 3 = z * (z : ℝ) ^ 2 by ring]
    exact mul_le_mul_of_nonneg_right hz1 p2
  have e4 : (z : ℝ) ^ 4 ≤ 1 / 40 * (z : ℝ) ^ 3 := by
    rw [show (z : ℝ) ^ 4 = z * (z : ℝ) ^ 3 by ring]
    exact mul_le_mul_of_nonneg_right hz1 p3
  have e5 : (n : ℝ) * (z : ℝ) ^ 5 ≤ 1 / 40 * (z : ℝ) ^ 4 := by
    rw [show (n : ℝ) * (z : ℝ) ^ 5 = n * z * (z : ℝ) ^ 4 by ring]
    exact mul_le_mul_of_nonneg_right h2 p4
  have e1 : (n : ℝ) * (20 / 3 * z * M + 51 / 5 * (z : ℝ) ^ 5) ≤ 1 / 6 * M + 51 / 200 * (z : ℝ) ^ 4 := by
    have a := mul_le_mul_of_nonneg_right h2 hM0
    linarith
  have e2 : S ≤ (z : ℝ) ^ 2 / 2 + 4 / 3 * (z : ℝ) ^ 3 + 4 * (z : ℝ) ^ 4 := by
    rw [hSd]
    linarith
  have e6 : z * M ≤ 1 / 40 * M := mul_le_mul_of_nonneg_right hz1 hM0
  linarith

end Verif
